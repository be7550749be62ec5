import Verif.Nhs.Codec
/- Helper lemmas: compression, key bits and noise of `nhs.rs`. -/
namespace Verif.Nhs
open Spec.Nhs (q ones noise)

theorem sdiv_is {x y : I32} {u v : Nat} (hx : Is x u) (hy : Is y v) : Is (x.sdiv y) (u / v) := by
  have h1 := hx.lt; have h2 := hy.lt
  have m1 : x.msb = false := by rw [BitVec.msb_eq_decide, hx.nat]; simp; omega
  have m2 : y.msb = false := by rw [BitVec.msb_eq_decide, hy.nat]; simp; omega
  have e : x.sdiv y = x.udiv y := by rw [BitVec.sdiv_eq, m1, m2]
  refine ⟨lt_of_le_of_lt (Nat.div_le_self _ _) h1, ?_⟩
  rw [e, BitVec.udiv_eq, BitVec.toNat_udiv, hx.nat, hy.nat]

theorem round_is {x y : I32} {u v : Nat} (hx : Is x u) (hy : Is y v) (h : u + v / 2 < 2 ^ 31) :
    Is (round x y) ((u + v / 2) / v) :=
  sdiv_is (hx.add (sdiv_is hy (show Is 2 2 from ⟨by decide, by decide⟩)) h) hy

theorem mul_is {x y : I32} {u v : Nat} (hx : Is x u) (hy : Is y v) (h : u * v < 2 ^ 31) : Is (x * y) (u * v) :=
  ⟨h, by rw [BitVec.toNat_mul, hx.nat, hy.nat, Nat.mod_eq_of_lt (by omega)]⟩

/-- the three bits kept of a coefficient -/
def digit3 (v : Nat) : Nat := (v * 8 + 6144) / 12289 % 8

theorem comp3_is {x : I32} {v : Nat} (hx : Is x v) (hv : v < 2 ^ 16) : Is (comp3 x) (digit3 v) := by
  have h := round_is (mul_is hx (show Is 8 8 from ⟨by decide, by decide⟩) (by omega)) is_prime (by unfold q; omega)
  refine ⟨by unfold digit3; omega, ?_⟩
  unfold comp3
  rw [BitVec.toNat_and, h.nat, show (7 : I32).toNat = 2 ^ 3 - 1 from rfl, Nat.and_two_pow_sub_one_eq_mod]
  rfl

theorem shl_is {x : I32} {v : Nat} (hx : Is x v) (k : Nat) (h : v * 2 ^ k < 2 ^ 31) : Is (x <<< k) (v * 2 ^ k) :=
  ⟨h, by rw [BitVec.toNat_shiftLeft, hx.nat, Nat.shiftLeft_eq, Nat.mod_eq_of_lt (by omega)]⟩

theorem compCol_is (poly : Poly) (i : Nat) (d : Nat → Nat) (hd : ∀ l < 8, Is (comp3 (poly (8 * i + l))) (d l)) (hd8 : ∀ l < 8, d l < 8) :
    Is (compCol poly i) (((((((d 0 * 8 + d 1) * 8 + d 2) * 8 + d 3) * 8 + d 4) * 8 + d 5) * 8 + d 6) * 8 + d 7) := by
  have z : Is (0 : I32) 0 := ⟨by decide, rfl⟩
  have d0 := hd8 0 (by decide); have d1 := hd8 1 (by decide); have d2 := hd8 2 (by decide); have d3 := hd8 3 (by decide)
  have d4 := hd8 4 (by decide); have d5 := hd8 5 (by decide); have d6 := hd8 6 (by decide); have d7 := hd8 7 (by decide)
  have s0 := (shl_is z 3 (by decide)).add (hd 0 (by decide)) (by omega)
  have s1 := (shl_is s0 3 (by omega)).add (hd 1 (by decide)) (by omega)
  have s2 := (shl_is s1 3 (by omega)).add (hd 2 (by decide)) (by omega)
  have s3 := (shl_is s2 3 (by omega)).add (hd 3 (by decide)) (by omega)
  have s4 := (shl_is s3 3 (by omega)).add (hd 4 (by decide)) (by omega)
  have s5 := (shl_is s4 3 (by omega)).add (hd 5 (by decide)) (by omega)
  have s6 := (shl_is s5 3 (by omega)).add (hd 6 (by decide)) (by omega)
  have s7 := (shl_is s6 3 (by omega)).add (hd 7 (by decide)) (by omega)
  refine ⟨by omega, ?_⟩
  have := s7.nat
  unfold compCol
  exact this.trans (by omega)

theorem byte_is (b : Byte) : Is (b.setWidth 32) b.toNat := by
  have := b.isLt
  exact ⟨by omega, by rw [BitVec.toNat_setWidth]; omega⟩

theorem decompCol_is (l : List Byte) (j : Nat) :
    Is (decompCol l j) ((l.getD (j + 2) 0).toNat * 65536 + (l.getD (j + 1) 0).toNat * 256 + (l.getD j 0).toNat) := by
  unfold decompCol
  have h2 := (l.getD (j + 2) 0).isLt; have h1 := (l.getD (j + 1) 0).isLt; have h0 := (l.getD j 0).isLt
  have a := (shl_is (byte_is (l.getD (j + 2) 0)) 8 (by omega)).add (byte_is (l.getD (j + 1) 0)) (by omega)
  have b := (shl_is a 8 (by omega)).add (byte_is (l.getD j 0)) (by omega)
  exact ⟨by omega, b.nat.trans (by omega)⟩

theorem mask21 (y : I32) : Is ((y &&& 0xe00000).sshiftRight 21) (y.toNat / 2 ^ 21 % 8) := by
  refine ⟨by omega, ?_⟩
  have m : (y &&& 0xe00000).msb = false := by rw [BitVec.msb_and, show (0xe00000 : I32).msb = false by decide, Bool.and_false]
  rw [BitVec.sshiftRight_eq_of_msb_false m, BitVec.toNat_ushiftRight, BitVec.toNat_and,
    Nat.shiftRight_and_distrib, show (0xe00000 : I32).toNat >>> 21 = 2 ^ 3 - 1 from rfl, Nat.and_two_pow_sub_one_eq_mod,
    Nat.shiftRight_eq_div_pow]

theorem decompress_is (l : List Byte) (p : Nat) (col : Nat) (hc : Is (decompCol l (3 * (p / 8))) col) (hcol : col < 2 ^ 24) :
    Is (decompress l p) ((col / 2 ^ (21 - 3 * (p % 8)) % 8 * 12289 + 4) / 8) := by
  unfold decompress
  have h := mask21 (decompCol l (3 * (p / 8)) <<< (3 * (p % 8)))
  have e : (decompCol l (3 * (p / 8)) <<< (3 * (p % 8))).toNat / 2 ^ 21 % 8 = col / 2 ^ (21 - 3 * (p % 8)) % 8 := by
    rw [BitVec.toNat_shiftLeft, hc.nat, Nat.shiftLeft_eq]
    have hp : p % 8 < 8 := Nat.mod_lt _ (by decide)
    generalize p % 8 = r at hp
    interval_cases r <;> simp <;> omega
  rw [e] at h
  have h2 := round_is (mul_is h is_prime (by unfold q; omega)) (show Is 8 8 from ⟨by decide, by decide⟩) (by unfold q; omega)
  exact h2

theorem compress_getD (x : Poly) (i j : Nat) (hi : i < 128) (hj : j < 3) : (compress x).getD (3 * i + j) 0 =
    ([(compCol x i &&& 0xff).setWidth 8, ((compCol x i).sshiftRight 8 &&& 0xff).setWidth 8, ((compCol x i).sshiftRight 16 &&& 0xff).setWidth 8] : List Byte).getD j 0 := by
  unfold compress; rw [flatMap_getD _ 3 (fun _ => rfl) 0 128 i j hi hj]

theorem low8 {x : I32} {v : Nat} (hx : Is x v) (k : Nat) : ((x.sshiftRight k &&& 0xff).setWidth 8 : Byte).toNat = v / 2 ^ k % 256 := by
  have m1 : x.msb = false := by rw [BitVec.msb_eq_decide, hx.nat]; have := hx.lt; simp; omega
  rw [BitVec.toNat_setWidth, BitVec.toNat_and, BitVec.sshiftRight_eq_of_msb_false m1, BitVec.toNat_ushiftRight, hx.nat,
    show (0xff : I32).toNat = 2 ^ 8 - 1 from rfl, Nat.and_two_pow_sub_one_eq_mod, Nat.shiftRight_eq_div_pow]
  omega

theorem compress_col (x : Poly) (i : Nat) (hi : i < 128) (v : Nat) (hv : Is (compCol x i) v) (hv2 : v < 2 ^ 24) (l : List Byte)
    (hl : l = compress x) : Is (decompCol l (3 * i)) v := by
  subst hl
  have h := decompCol_is (compress x) (3 * i)
  have g0 := compress_getD x i 0 hi (by decide)
  have g1 := compress_getD x i 1 hi (by decide)
  have g2 := compress_getD x i 2 hi (by decide)
  simp only [List.getD_cons_zero, List.getD_cons_succ, Nat.add_zero] at g0 g1 g2
  have e0 := low8 hv 0
  rw [show (compCol x i).sshiftRight 0 = compCol x i by simp] at e0
  rw [g0, g1, g2, e0, low8 hv 8, low8 hv 16] at h
  have : v / 2 ^ 16 % 256 * 65536 + v / 2 ^ 8 % 256 * 256 + v / 2 ^ 0 % 256 = v := by omega
  rwa [this] at h

/-- what compression and decompression leave of a coefficient -/
def lossy (v : Nat) : Nat := (digit3 v * 12289 + 4) / 8

theorem decompress_compress (x : Poly) (hx : ∀ p < 1024, (x p).toNat < 2 ^ 16) (p : Nat) (hp : p < 1024) (l : List Byte) (hl : l = compress x) :
    Is (decompress l p) (lossy (x p).toNat) := by
  have hd : ∀ l < 8, Is (comp3 (x (8 * (p / 8) + l))) (digit3 (x (8 * (p / 8) + l)).toNat) := fun l hl =>
    comp3_is ⟨by have := hx (8 * (p / 8) + l) (by omega); omega, rfl⟩ (hx _ (by omega))
  have h8 : ∀ l < 8, digit3 (x (8 * (p / 8) + l)).toNat < 8 := fun l _ => by unfold digit3; omega
  have hc := compCol_is x (p / 8) (fun l => digit3 (x (8 * (p / 8) + l)).toNat) hd h8
  have d0 := h8 0 (by decide); have d1 := h8 1 (by decide); have d2 := h8 2 (by decide); have d3 := h8 3 (by decide)
  have d4 := h8 4 (by decide); have d5 := h8 5 (by decide); have d6 := h8 6 (by decide); have d7 := h8 7 (by decide)
  have hcol := compress_col x (p / 8) (by omega) _ hc (by omega) l hl
  have h := decompress_is l p _ hcol (by omega)
  have e : p = 8 * (p / 8) + p % 8 := by omega
  have hp8 : p % 8 < 8 := Nat.mod_lt _ (by decide)
  unfold lossy
  rw [show digit3 (x p).toNat = digit3 (x (8 * (p / 8) + p % 8)).toNat by rw [← e]]
  clear hd hc hcol
  refine ⟨by have := h8 (p % 8) hp8; omega, h.nat.trans ?_⟩
  clear h
  congr 3
  clear e
  generalize p % 8 = r at hp8
  generalize p / 8 = i at *
  interval_cases r <;> omega

/-- the loss is at most 768 modulo q -/
theorem lossy_err (v : Nat) : ∃ c e : Int, (lossy v : Int) = v + e + c * q ∧ |e| ≤ 768 := by
  obtain ⟨c, h1, h2, hc⟩ : ∃ c, c * 12289 ≤ v * 8 + 6144 ∧ v * 8 + 6144 < (c + 1) * 12289 ∧ c = (v * 8 + 6144) / 12289 :=
    ⟨(v * 8 + 6144) / 12289, by omega, by omega, rfl⟩
  obtain ⟨b, g, hb, hg⟩ : ∃ b g, c = 8 * g + b ∧ b = c % 8 := ⟨c % 8, c / 8, by omega, rfl⟩
  obtain ⟨w, w1, w2, hw⟩ : ∃ w, 8 * w ≤ b * 12289 + 4 ∧ b * 12289 + 4 < 8 * w + 8 ∧ w = (b * 12289 + 4) / 8 :=
    ⟨(b * 12289 + 4) / 8, by omega, by omega, rfl⟩
  have e : lossy v = w := by unfold lossy digit3; rw [hw, hg, hc]
  refine ⟨-(g : Int), (w : Int) - v + g * q, by rw [e]; ring, ?_⟩
  unfold q
  clear e hw hg hc
  rw [abs_le]
  constructor <;> omega

theorem lossy_lt (v : Nat) : lossy v < q := by unfold lossy digit3 q; omega

/-- decompressing and compressing again changes nothing -/
theorem digit3_decompress (b : Nat) (hb : b < 8) : digit3 ((b * 12289 + 4) / 8) = b := by
  interval_cases b <;> rfl

theorem nabs_is (y : I32) (z : Int) (h : y.toInt = z) (hz : |z| < 2 ^ 30) : Is (nabs y) z.natAbs := by
  have hb := abs_lt.1 hz
  unfold nabs
  simp only
  by_cases c : z < 0
  · have hs : y.sshiftRight 31 = BitVec.allOnes 32 := by
      apply BitVec.eq_of_toInt_eq
      rw [BitVec.toInt_sshiftRight, h, Int.shiftRight_eq_div_pow, show (BitVec.allOnes 32).toInt = -1 by decide]
      omega
    rw [hs]
    have e : (y + BitVec.allOnes 32) ^^^ BitVec.allOnes 32 = -y := by
      apply BitVec.eq_of_toNat_eq
      rw [BitVec.xor_allOnes, BitVec.toNat_not, BitVec.toNat_add, BitVec.toNat_neg, show (BitVec.allOnes 32).toNat = 2 ^ 32 - 1 by decide]
      have := y.isLt
      omega
    rw [e]
    apply is_of_int
    rw [BitVec.toInt_neg, h, Big.bmod_two_pow (by decide) (by norm_num; omega) (by norm_num; omega)]
    omega
  · have hs : y.sshiftRight 31 = 0#32 := by
      apply BitVec.eq_of_toInt_eq
      rw [BitVec.toInt_sshiftRight, h, Int.shiftRight_eq_div_pow, show (0#32 : I32).toInt = 0 by decide]
      omega
    rw [hs, BitVec.add_zero, BitVec.xor_zero]
    apply is_of_int
    omega

theorem half_prime : Is (PRIME.sdiv 2) 6144 := ⟨by decide, by decide⟩

theorem dist_is {x : I32} {v : Nat} (hx : Is x v) (hv : v < q) : Is (nabs (x - PRIME.sdiv 2)) ((v : Int) - 6144).natAbs := by
  unfold q at hv
  apply nabs_is
  · rw [Big.toInt_sub_of _ _ (by omega) (by rw [hx.int, half_prime.int]; norm_num; omega) (by rw [hx.int, half_prime.int]; norm_num; omega),
      hx.int, half_prime.int]; rfl
  · rw [abs_lt]; omega

/-- the decision of `decode` -/
theorem decodeBit_eq (x : Poly) (i : Nat) (k0 k1 k2 k3 : Nat) (h0 : Is (x i) k0) (h1 : Is (x (i + 256)) k1) (h2 : Is (x (i + 512)) k2)
    (h3 : Is (x (i + 768)) k3) (l0 : k0 < q) (l1 : k1 < q) (l2 : k2 < q) (l3 : k3 < q) :
    decodeBit x i = if ((k0 : Int) - 6144).natAbs + ((k1 : Int) - 6144).natAbs + ((k2 : Int) - 6144).natAbs + ((k3 : Int) - 6144).natAbs < q then 1 else 0 := by
  have hq : q = 12289 := rfl
  have s1 := (dist_is h0 l0).add (dist_is h1 l1) (by omega)
  have s2 := s1.add (dist_is h2 l2) (by omega)
  have s3 := s2.add (dist_is h3 l3) (by omega)
  unfold decodeBit
  simp only
  generalize ((k0 : Int) - 6144).natAbs + ((k1 : Int) - 6144).natAbs + ((k2 : Int) - 6144).natAbs + ((k3 : Int) - 6144).natAbs = T at s3
  generalize nabs (x i - PRIME.sdiv 2) + nabs (x (i + 256) - PRIME.sdiv 2) + nabs (x (i + 512) - PRIME.sdiv 2) + nabs (x (i + 768) - PRIME.sdiv 2) = t at s3
  have ht := s3.lt
  have e : (t - PRIME).toInt = (T : Int) - 12289 := by
    rw [Big.toInt_sub_of _ _ (by omega) (by rw [s3.int, is_prime.int, hq]; norm_num; omega) (by rw [s3.int, is_prime.int, hq]; norm_num; omega),
      s3.int, is_prime.int, hq]; rfl
  by_cases c : T < q
  · have hs : (t - PRIME).sshiftRight 31 = BitVec.allOnes 32 := by
      apply BitVec.eq_of_toInt_eq
      rw [BitVec.toInt_sshiftRight, e, Int.shiftRight_eq_div_pow, show (BitVec.allOnes 32).toInt = -1 by decide]
      omega
    rw [hs, if_pos c]; decide
  · have hs : (t - PRIME).sshiftRight 31 = 0#32 := by
      apply BitVec.eq_of_toInt_eq
      rw [BitVec.toInt_sshiftRight, e, Int.shiftRight_eq_div_pow, show (0#32 : I32).toInt = 0 by decide]
      omega
    rw [hs, if_neg c]; decide

/-- four noisy copies of a bit are decoded correctly while the noise adds up to at most q - 2 -/
theorem decode_tolerance (β : Nat) (hβ : β ≤ 1) (k : Fin 4 → Nat) (n c : Fin 4 → Int) (hk : ∀ j, k j < q)
    (hn : ∀ j, (k j : Int) = 6144 * β + n j + c j * q) (hs : |n 0| + |n 1| + |n 2| + |n 3| ≤ 12287) :
    (((k 0 : Int) - 6144).natAbs + ((k 1 : Int) - 6144).natAbs + ((k 2 : Int) - 6144).natAbs + ((k 3 : Int) - 6144).natAbs < q) ↔ β = 1 := by
  have key : ∀ j, (β = 1 → ((k j : Int) - 6144).natAbs ≤ |n j|) ∧ (β = 0 → 6144 - |n j| ≤ ((k j : Int) - 6144).natAbs) := by
    intro j
    have h1 := hk j
    have h2 := hn j
    generalize k j = k at h1 h2
    generalize n j = n at h2
    generalize c j = c at h2
    unfold q at h1 h2
    constructor
    · rintro rfl
      rcases abs_cases n with ⟨e, _⟩ | ⟨e, _⟩ <;> rw [e]
      · by_cases hc : c ≤ 0
        · omega
        · omega
      · omega
    · rintro rfl
      rcases abs_cases n with ⟨e, _⟩ | ⟨e, _⟩ <;> rw [e] <;> omega
  have k0 := key 0; have k1 := key 1; have k2 := key 2; have k3 := key 3
  unfold q
  constructor
  · intro h
    by_contra hb
    have hb : β = 0 := by omega
    have := k0.2 hb; have := k1.2 hb; have := k2.2 hb; have := k3.2 hb
    omega
  · intro hb
    have := k0.1 hb; have := k1.1 hb; have := k2.1 hb; have := k3.1 hb
    omega

theorem byte_bits : ∀ k : Byte, (List.range 8).foldl (fun (kj : Byte) l => (kj >>> 1) + (((((k >>> l) &&& 1).setWidth 32 : I32)) <<< 7).setWidth 8) 0 = k := by
  decide +kernel

end Verif.Nhs
