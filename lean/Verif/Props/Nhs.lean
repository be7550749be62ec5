import Verif.Nhs.Protocol
import Verif.Rand.Model
import Verif.Props.Sha3
/-
C52-C54: New Hope key exchange.
-/
namespace Verif.Props
open Verif.Nhs
open Spec.Nhs (q negMul noise)
open Spec (draw bitsLSB)

/-- C52. Packing 1024 coefficients below 2^14 gives 1792 bytes from which unpacking returns every coefficient. -/
theorem C52_unpack_pack (x : Poly) (hx : ∀ p < 1024, (x p).toNat < 2 ^ 14) :
    (pack x).length = 1792 ∧ ∀ p < 1024, unpack (pack x) p = x p :=
  ⟨pack_len x, fun p hp => unpack_pack x hx _ rfl p hp⟩

example : unpack (pack fun p => BitVec.ofNat 32 (p * 13 + 5)) 1023 = 13304 :=
  (C52_unpack_pack (fun p => BitVec.ofNat 32 (p * 13 + 5)) (fun p hp => by
    rw [BitVec.toNat_ofNat, Nat.mod_eq_of_lt (by omega)]; omega)).2 1023 (by decide)

/-- C52. Every string of 1792 bytes is the packing of the coefficients it unpacks to, all below 2^14. -/
theorem C52_pack_unpack (l : List Nhs.Byte) (hl : l.length = 1792) :
    pack (unpack l) = l ∧ ∀ p, (unpack l p).toNat < 2 ^ 14 :=
  ⟨pack_unpack l hl, unpack_lt l⟩

/-- C52. Compressing 1024 coefficients (below 2^16) keeps each of them up to an error of at most 768 modulo q. -/
theorem C52_compress_error (x : Poly) (hx : ∀ p < 1024, (x p).toNat < 2 ^ 16) :
    (compress x).length = 384 ∧ ∀ p < 1024, ∃ c e : Int,
      (decompress (compress x) p).toInt = (x p).toInt + e + c * 12289 ∧ |e| ≤ 768 ∧
      0 ≤ (decompress (compress x) p).toInt ∧ (decompress (compress x) p).toInt < 12289 := by
  refine ⟨compress_len x, fun p hp => ?_⟩
  have h := decompress_compress x hx p hp _ rfl
  obtain ⟨c, e, h1, h2⟩ := lossy_err (x p).toNat
  have hi : Is (x p) (x p).toNat := ⟨by have := hx p hp; omega, rfl⟩
  refine ⟨c, e, ?_, h2, ?_, ?_⟩
  · rw [h.int, hi.int]; exact h1
  · rw [h.int]; omega
  · rw [h.int]; have := lossy_lt (x p).toNat; unfold q at this; omega

/-- C52. Compressed data round-trips: decompressing any 384 bytes and compressing the result gives them back. -/
theorem C52_compress_decompress (l : List Nhs.Byte) (hl : l.length = 384) : compress (decompress l) = l := by
  apply list_ext_getD _ _ (by rw [compress_len, hl])
  intro i hi
  rw [compress_len] at hi
  have h := compress_getD (decompress l) (i / 3) (i % 3) (by omega) (by omega)
  rw [show 3 * (i / 3) + i % 3 = i by omega] at h
  rw [h]
  have hc := decompCol_is l (3 * (i / 3))
  have l0 := (l.getD (3 * (i / 3)) 0).isLt
  have l1 := (l.getD (3 * (i / 3) + 1) 0).isLt
  have l2 := (l.getD (3 * (i / 3) + 2) 0).isLt
  set col := (l.getD (3 * (i / 3) + 2) 0).toNat * 65536 + (l.getD (3 * (i / 3) + 1) 0).toNat * 256 + (l.getD (3 * (i / 3)) 0).toNat with hcol
  have hlt : col < 2 ^ 24 := by omega
  have hd : ∀ k < 8, Is (comp3 (decompress l (8 * (i / 3) + k))) (col / 2 ^ (21 - 3 * k) % 8) := by
    intro k hk
    have hp : 3 * ((8 * (i / 3) + k) / 8) = 3 * (i / 3) := by omega
    have h1 := decompress_is l (8 * (i / 3) + k) col (by rw [hp]; exact hc) hlt
    rw [show (8 * (i / 3) + k) % 8 = k by omega] at h1
    have hb : col / 2 ^ (21 - 3 * k) % 8 < 8 := Nat.mod_lt _ (by decide)
    have h2 := comp3_is h1 (by omega)
    rwa [digit3_decompress _ hb] at h2
  have hcc := compCol_is (decompress l) (i / 3) (fun k => col / 2 ^ (21 - 3 * k) % 8) hd (fun k _ => Nat.mod_lt _ (by decide))
  have e : ((((((col / 2 ^ (21 - 3 * 0) % 8 * 8 + col / 2 ^ (21 - 3 * 1) % 8) * 8 + col / 2 ^ (21 - 3 * 2) % 8) * 8 + col / 2 ^ (21 - 3 * 3) % 8) * 8 +
      col / 2 ^ (21 - 3 * 4) % 8) * 8 + col / 2 ^ (21 - 3 * 5) % 8) * 8 + col / 2 ^ (21 - 3 * 6) % 8) * 8 + col / 2 ^ (21 - 3 * 7) % 8 = col := by
    clear_value col
    norm_num
    omega
  replace hcc : Is (compCol (decompress l) (i / 3)) col := by rw [← e]; exact hcc
  have hi3 : i % 3 = 0 ∨ i % 3 = 1 ∨ i % 3 = 2 := by omega
  apply BitVec.eq_of_toNat_eq
  rcases hi3 with g | g | g
  · rw [g, List.getD_cons_zero]
    have := low8 hcc 0
    rw [show (compCol (decompress l) (i / 3)).sshiftRight 0 = compCol (decompress l) (i / 3) by simp] at this
    have hii : l.getD i 0 = l.getD (3 * (i / 3)) 0 := by congr 1; omega
    rw [this, hii]; omega
  · rw [g, List.getD_cons_succ, List.getD_cons_zero, low8 hcc 8]
    have : l.getD i 0 = l.getD (3 * (i / 3) + 1) 0 := by congr 1; omega
    rw [this]; omega
  · rw [g, List.getD_cons_succ, List.getD_cons_succ, List.getD_cons_zero, low8 hcc 16]
    have : l.getD i 0 = l.getD (3 * (i / 3) + 2) 0 := by congr 1; omega
    rw [this]; omega

/-- C53. Montgomery reduction of any value below 2^62: the result `r` satisfies `2^32·r ≡ t (mod 12289)` and
`0 ≤ 2^32·r < t + 2^32·12289`. -/
theorem C53_redc (t : BitVec 64) (ht : t.toNat < 2 ^ 62) :
    (2 ^ 32 * (redc t).toInt) % 12289 = (t.toNat : Int) % 12289 ∧ 0 ≤ (redc t).toInt ∧
    2 ^ 32 * (redc t).toInt < (t.toNat : Int) + 2 ^ 32 * 12289 := by
  obtain ⟨r, m, h1, h2, h3⟩ := redc_is t ht
  rw [h1.int]
  unfold q at h3
  generalize t.toNat = n at h3
  refine ⟨?_, by omega, by omega⟩
  have : (2 ^ 32 * (r : Int)) = n + m * 12289 := by have := congrArg (fun x : Nat => (x : Int)) h3; push_cast at this; linarith
  rw [this, Int.add_mul_emod_self_right]

/-- C53. `modmul` of non-negative words is the Montgomery product. -/
theorem C53_modmul (a b : Nhs.I32) (ha : 0 ≤ a.toInt) (hb : 0 ≤ b.toInt) :
    (2 ^ 32 * (modmul a b).toInt) % 12289 = (a.toInt * b.toInt) % 12289 ∧ 0 ≤ (modmul a b).toInt ∧
    2 ^ 32 * (modmul a b).toInt < a.toInt * b.toInt + 2 ^ 32 * 12289 := by
  have ia := is_of_int (x := a) (v := a.toInt.toNat) (by omega)
  have ib := is_of_int (x := b) (v := b.toInt.toNat) (by omega)
  obtain ⟨r, m, h1, h2, h3⟩ := modmul_is ia ib
  rw [h1.int, ia.int, ib.int]
  unfold q at h3
  generalize a.toInt.toNat = u at *
  generalize b.toInt.toNat = v at *
  have e : (2 ^ 32 * (r : Int)) = u * v + m * 12289 := by have := congrArg (fun x : Nat => (x : Int)) h3; push_cast at this; linarith
  refine ⟨?_, by omega, by rw [e]; omega⟩
  rw [e, Int.add_mul_emod_self_right]

/-- C53. `nres` multiplies a non-negative word by 2^32 modulo 12289; the result is below 2·12289. -/
theorem C53_nres (a : Nhs.I32) (ha : 0 ≤ a.toInt) :
    (nres a).toInt % 12289 = (2 ^ 32 * a.toInt) % 12289 ∧ 0 ≤ (nres a).toInt ∧ (nres a).toInt < 2 * 12289 := by
  have ia := is_of_int (x := a) (v := a.toInt.toNat) (by omega)
  obtain ⟨r, m, h1, h2, h3⟩ := nres_is ia
  have hlt := ia.lt
  rw [h1.int, ia.int]
  unfold q at h3
  generalize a.toInt.toNat = u at *
  have e : (r : Int) * 2 ^ 32 = u * 5664 + m * 12289 := by have := congrArg (fun x : Nat => (x : Int)) h3; push_cast at this; linarith
  refine ⟨?_, by omega, by omega⟩
  have h : Int.ModEq 12289 (r * 2 ^ 32) (2 ^ 32 * u * 2 ^ 32) := by
    rw [e]
    calc (u : Int) * 5664 + m * 12289 ≡ u * 5664 + 0 [ZMOD 12289] := Int.ModEq.add_left _ ((Int.modEq_zero_iff_dvd).2 (Dvd.intro_left _ rfl))
      _ = u * 5664 := by ring
      _ ≡ u * (2 ^ 32 * 2 ^ 32) [ZMOD 12289] := Int.ModEq.mul_left _ (by decide)
      _ = _ := by ring
  have h2 := Int.ModEq.cancel_right_div_gcd (by decide) h
  rwa [show Int.gcd 12289 (2 ^ 32) = 1 by decide, Nat.cast_one, Int.ediv_one] at h2

/-- C53. `poly_soft_reduce` fully reduces coefficients below 2q, `poly_hard_reduce` every non-negative word. -/
theorem C53_reduce (a : Nhs.I32) (ha : 0 ≤ a.toInt) :
    (a.toInt < 2 * 12289 → (softReduce a).toInt = a.toInt % 12289) ∧ (hardReduce a).toInt = a.toInt % 12289 := by
  have ia := is_of_int (x := a) (v := a.toInt.toNat) (by omega)
  constructor
  · intro h
    rw [(softReduce_is ia (by unfold q; omega)).int, ia.int]; rfl
  · rw [(hardReduce_is ia).int, ia.int]; rfl

/-- C53. The forward transform followed by pointwise multiplication and the inverse transform multiplies in
ℤ/12289[x]/(x^1024+1): for all polynomials with non-negative words as coefficients the result is the fully reduced product. -/
theorem C53_transform_product (x y : Poly) (hx : ∀ p < 1024, 0 ≤ (x p).toInt) (hy : ∀ p < 1024, 0 ≤ (y p).toInt) (p : Nat) (hp : p < 1024) :
    (intt (polyMul (polyHardReduce (ntt x)) (ntt y)) p).toInt = negMul (fun i => (x i).toInt) (fun i => (y i).toInt) p % 12289 := by
  have hxi : ∀ p < 1024, Is (x p) (x p).toNat := fun p hp => by
    have h := is_of_int (x := x p) (v := (x p).toInt.toNat) (by have := hx p hp; omega)
    exact ⟨by rw [h.nat]; exact h.lt, rfl⟩
  have hyi : ∀ p < 1024, Is (y p) (y p).toNat := fun p hp => by
    have h := is_of_int (x := y p) (v := (y p).toInt.toNat) (by have := hy p hp; omega)
    exact ⟨by rw [h.nat]; exact h.lt, rfl⟩
  obtain ⟨y1, y2⟩ := ntt_ok y (fun p hp => (hyi p hp).lt)
  obtain ⟨r, r1, r2, r3⟩ := intt_ok (polyMul (polyHardReduce (ntt x)) (ntt y)) (fun p hp => by
      have hs := (sec_ok x (fun p hp => (hxi p hp).lt) p hp).1
      have := (mul22 (x := polyHardReduce (ntt x) p) (by unfold q; omega) (y1 p hp)).1
      exact le_trans this (by omega)) (negMul (zv x) (zv y)) (fun p hp => by
      obtain ⟨s1, s2⟩ := sec_ok x (fun p hp => (hxi p hp).lt) p hp
      have h := (mul22 (x := polyHardReduce (ntt x) p) (by unfold q; omega) (y1 p hp)).2
      have hy2 := y2 p hp
      rw [mul_ok _ _ p hp]
      unfold zv at s2 hy2 ⊢
      unfold polyMul
      rw [h, s2, hy2]
      have := rr_rinv
      linear_combination (rr * ev (fun p => (((x p).toNat : Nat) : K)) 1024 (node (1024 + p)) * ev (fun p => (((y p).toNat : Nat) : K)) 1024 (node (1024 + p))) * this) p hp
  rw [r1.int]
  have e : negMul (zv x) (zv y) p = ((negMul (fun i => (x i).toInt) (fun i => (y i).toInt) p : Int) : K) := by
    rw [negMul_cast]
    exact negMul_congr _ _ _ _ (fun i hi => by rw [(hxi i hi).int, Int.cast_natCast]; rfl) (fun i hi => by rw [(hyi i hi).int, Int.cast_natCast]; rfl) p hp
  rw [e, ← Int.cast_natCast] at r3
  have h := (ZMod.intCast_eq_intCast_iff _ _ _).1 r3
  have h2 : ((r : Int) % 12289) = negMul (fun i => (x i).toInt) (fun i => (y i).toInt) p % 12289 := h
  unfold q at r2
  omega

section
variable {σ τ : Type}

attribute [local irreducible] draw errorLoop nttLoop inttLoop ctLayer gsLayer Sha3.shake Sha3.hash negMul

theorem hashKey_len (k : List Nhs.Byte) (hk : k.length = 32) : (hashKey k).length = 32 := by
  unfold hashKey
  exact (C22_sha3 32 (by decide) (by decide) _ (by simp [hk])).2

theorem error_pair (next : σ → Nhs.Byte × σ) (s : σ) : error next s = ((error next s).1, (draw next 4096 s).2) := by
  rw [← error_state]

theorem draw_split (D : Nat → σ → List Nhs.Byte × σ) (hD : ∀ a b s, D (a + b) s = ((D a s).1 ++ (D b (D a s).2).1, (D b (D a s).2).2))
    (N a b c : Nat) (h : N = a + (b + c)) (s : σ) :
    (D N s).1 = (D a s).1 ++ ((D b (D a s).2).1 ++ (D c (D b (D a s).2).2).1) := by
  rw [h, hD, hD]

theorem draw_split4 (D : Nat → σ → List Nhs.Byte × σ) (hD : ∀ a b s, D (a + b) s = ((D a s).1 ++ (D b (D a s).2).1, (D b (D a s).2).2))
    (N a b c d : Nat) (h : N = a + (b + (c + d))) (s : σ) :
    (D N s).1 = (D a s).1 ++ ((D b (D a s).2).1 ++ ((D c (D b (D a s).2).2).1 ++ (D d (D c (D b (D a s).2).2).2).1)) := by
  rw [h, hD, hD, hD]

/-- `server1` with the random draws abstracted, so that the kernel never unfolds them -/
def server1G (gb : σ → List Nhs.Byte × σ) (er : σ → Poly × σ) (rng : σ) : List Nhs.Byte × List Nhs.Byte × σ :=
  match gb rng with
  | (seed, rng) => match er rng with
    | (e, rng) => match er rng with
      | (s, rng) => (seed ++ pack (redcIt (polyHardReduce (polyAdd (polyMul (parse seed) (ntt s)) (ntt e)))), pack (polyHardReduce (ntt s)), rng)

/-- `client` with the random draws abstracted -/
def clientG (gb : σ → List Nhs.Byte × σ) (er : σ → Poly × σ) (rng : σ) (sb : List Nhs.Byte) : List Nhs.Byte × List Nhs.Byte × σ :=
  match er rng with
  | (sd, rng) => match er rng with
    | (ed, rng) => match gb rng with
      | (key, rng) => match er rng with
        | (e2, rng) => (pack (redcIt (polyHardReduce (polyAdd (polyMul (parse (sb.take 32)) (ntt sd)) (ntt ed)))) ++
            compress (polyAdd (polyAdd (intt (polyMul (nresIt (unpack (sb.drop 32))) (ntt sd))) e2) (encode (hashKey key))), hashKey (hashKey key), rng)

theorem server1_G (next : σ → Nhs.Byte × σ) : server1 next = server1G (getbytes next 32) (error next) := rfl
theorem client_G (next : σ → Nhs.Byte × σ) : client next = clientG (getbytes next 32) (error next) := rfl

theorem server1_parts (gb : σ → List Nhs.Byte × σ) (er : σ → Poly × σ) (r r1 r2 r3 : σ) (seed : List Nhs.Byte) (E S : Poly) (h1 : gb r = (seed, r1))
    (h2 : er r1 = (E, r2)) (h3 : er r2 = (S, r3)) :
    server1G gb er r = (seed ++ pack (redcIt (polyHardReduce (polyAdd (polyMul (parse seed) (ntt S)) (ntt E)))), pack (polyHardReduce (ntt S)), r3) := by
  simp only [server1G, h1, h2, h3]

theorem client_parts (gb : σ → List Nhs.Byte × σ) (er : σ → Poly × σ) (r r1 r2 r3 r4 : σ) (sb seed lb kb : List Nhs.Byte) (SD ED E2 : Poly) (hsb : sb = seed ++ lb)
    (hseed : seed.length = 32) (h1 : er r = (SD, r1)) (h2 : er r1 = (ED, r2)) (h3 : gb r2 = (kb, r3))
    (h4 : er r3 = (E2, r4)) :
    clientG gb er r sb = (pack (redcIt (polyHardReduce (polyAdd (polyMul (parse seed) (ntt SD)) (ntt ED)))) ++
      compress (polyAdd (polyAdd (intt (polyMul (nresIt (unpack lb)) (ntt SD))) E2) (encode (hashKey kb))), hashKey (hashKey kb), r4) := by
  simp only [clientG, h1, h2, h3, h4, hsb, List.take_left' hseed, List.drop_left' hseed]

theorem error_at (next : σ → Nhs.Byte × σ) (s t : σ) (h : t = (draw next 4096 s).2) : error next s = ((error next s).1, t) := by
  rw [h]; exact error_pair next s

/-- the agreement, with the two random sources abstracted so that the kernel never unfolds them -/
theorem agree_gen (A : Nat → σ → List Nhs.Byte × σ) (B : Nat → τ → List Nhs.Byte × τ) (erA : σ → Poly × σ) (erB : τ → Poly × τ)
    (hA : ∀ a b s, A (a + b) s = ((A a s).1 ++ (A b (A a s).2).1, (A b (A a s).2).2))
    (hB : ∀ a b s, B (a + b) s = ((B a s).1 ++ (B b (B a s).2).1, (B b (B a s).2).2))
    (lA : ∀ n s, (A n s).1.length = n) (lB : ∀ n s, (B n s).1.length = n)
    (errA : ∀ s t, t = (A 4096 s).2 → erA s = ((erA s).1, t)) (errB : ∀ s t, t = (B 4096 s).2 → erB s = ((erB s).1, t))
    (zvA : ∀ s, ∀ p < 1024, ((erA s).1 p).toNat < 2 ^ 31 ∧ zv (erA s).1 p = ((noise (A 4096 s).1 p : Int) : K)) (zvB : ∀ s, ∀ p < 1024, ((erB s).1 p).toNat < 2 ^ 31 ∧ zv (erB s).1 p = ((noise (B 4096 s).1 p : Int) : K))
    (isB : ∀ s, ∀ p < 1024, Is ((erB s).1 p) (noise (B 4096 s).1 p + q).toNat)
    (rs : σ) (rc : τ) (bs bc : List Nhs.Byte)
    (hbs : bs = (A 8224 rs).1) (hbc : bc = (B 12320 rc).1)
    (hn : ∀ i < 256, ∑ c ∈ Finset.range 4, |negMul (noise (bs.drop 32)) (noise bc) (i + 256 * c) -
      negMul (noise (bc.drop 4096)) (noise (bs.drop 4128)) (i + 256 * c) + noise (bc.drop 8224) (i + 256 * c)| ≤ 9215) :
    server2 (server1G (A 32) erA rs).2.1 (clientG (B 32) erB rc (server1G (A 32) erA rs).1).1 = (clientG (B 32) erB rc (server1G (A 32) erA rs).1).2.1 ∧
    bitsLSB (clientG (B 32) erB rc (server1G (A 32) erA rs).1).2.1 = Spec.Sha3.sha3 256 (Spec.Sha3.sha3 256 (bitsLSB ((bc.drop 8192).take 32))) := by
  -- the byte streams
  set s1 := (A 32 rs).2 with hs1
  set s2 := (A 4096 s1).2 with hs2
  set t1 := (B 4096 rc).2 with ht1
  set t2 := (B 4096 t1).2 with ht2
  set t3 := (B 32 t2).2 with ht3
  have es : bs = (A 32 rs).1 ++ ((A 4096 s1).1 ++ (A 4096 s2).1) := by
    rw [hbs, hs2, hs1]; exact draw_split A hA 8224 32 4096 4096 (by norm_num) rs
  have ec : bc = (B 4096 rc).1 ++ ((B 4096 t1).1 ++ ((B 32 t2).1 ++ (B 4096 t3).1)) := by
    rw [hbc, ht3, ht2, ht1]; exact draw_split4 B hB 12320 4096 4096 32 4096 (by norm_num) rc
  have noise_app : ∀ (a b : List Nhs.Byte), a.length = 4096 → ∀ p < 1024, noise (a ++ b) p = noise a p := by
    intro a b ha p hp
    unfold noise
    rw [List.getD_append _ _ _ _ (by omega), List.getD_append _ _ _ _ (by omega), List.getD_append _ _ _ _ (by omega),
      List.getD_append _ _ _ _ (by omega)]
  have L := lA
  have M := lB
  have dE : bs.drop 32 = (A 4096 s1).1 ++ (A 4096 s2).1 := by
    rw [es, List.drop_left' (L 32 rs)]
  have dS : bs.drop 4128 = (A 4096 s2).1 := by
    rw [es, ← List.append_assoc, List.drop_left' (by rw [List.length_append, L, L])]
  have dED : bc.drop 4096 = (B 4096 t1).1 ++ ((B 32 t2).1 ++ (B 4096 t3).1) := by
    rw [ec, List.drop_left' (M 4096 rc)]
  have dK : (bc.drop 8192).take 32 = (B 32 t2).1 := by
    rw [ec, ← List.append_assoc, List.drop_left' (by rw [List.length_append, M, M]), List.take_left' (M 32 t2)]
  have dE2 : bc.drop 8224 = (B 4096 t3).1 := by
    rw [ec, ← List.append_assoc, ← List.append_assoc, List.drop_left' (by rw [List.length_append, List.length_append, M, M, M])]
  have hsd : ∀ p < 1024, noise bc p = noise (B 4096 rc).1 p := fun p hp => by rw [ec, noise_app _ _ (M 4096 rc) p hp]
  have hed : ∀ p < 1024, noise (bc.drop 4096) p = noise (B 4096 t1).1 p := fun p hp => by rw [dED, noise_app _ _ (M 4096 t1) p hp]
  have he : ∀ p < 1024, noise (bs.drop 32) p = noise (A 4096 s1).1 p := fun p hp => by rw [dE, noise_app _ _ (L 4096 s1) p hp]
  -- the two parties
  set seed := (A 32 rs).1 with hseed
  set E := (erA s1).1 with hE
  set S := (erA s2).1 with hS
  set SD := (erB rc).1 with hSD
  set ED := (erB t1).1 with hED
  set E2 := (erB t3).1 with hE2
  set key := hashKey (B 32 t2).1 with hkey
  have hkl : key.length = 32 := hashKey_len _ (M 32 t2)
  set lb := pack (redcIt (polyHardReduce (polyAdd (polyMul (parse seed) (ntt S)) (ntt E)))) with hlb
  set ls := pack (polyHardReduce (ntt S)) with hls
  set lu := pack (redcIt (polyHardReduce (polyAdd (polyMul (parse seed) (ntt SD)) (ntt ED)))) with hlu
  set lc := compress (polyAdd (polyAdd (intt (polyMul (nresIt (unpack lb)) (ntt SD))) E2) (encode key)) with hlc
  have x1 : server1G (A 32) erA rs = (seed ++ lb, ls, (A 4096 s2).2) :=
    server1_parts _ _ rs s1 s2 _ seed E S rfl (errA s1 s2 hs2) (errA s2 _ rfl)
  have x2 : clientG (B 32) erB rc (seed ++ lb) = (lu ++ lc, hashKey key, (B 4096 t3).2) :=
    client_parts _ _ rc t1 t2 t3 _ _ seed lb (B 32 t2).1 SD ED E2 rfl (L 32 rs) (errB rc t1 ht1) (errB t1 t2 ht2) rfl (errB t3 _ rfl)
  rw [x1]
  simp only
  rw [x2]
  simp only
  constructor
  · have hdec := agree_core (parse seed) S E SD ED E2 key hkl (noise (bs.drop 4128)) (noise (bs.drop 32)) (noise bc) (noise (bc.drop 4096))
      (noise (bc.drop 8224)) (fun p _ => parse_ok seed p)
      (fun p hp => by rw [dS]; exact zvA s2 p hp)
      (fun p hp => by rw [he p hp]; exact zvA s1 p hp)
      (fun p hp => by rw [hsd p hp]; exact zvB rc p hp)
      (fun p hp => by rw [hed p hp]; exact zvB t1 p hp)
      (fun p hp => by rw [dE2]; exact ⟨isB t3 p hp, noise_le _ _⟩) hn lb lu ls lc rfl rfl rfl rfl
    unfold server2
    have hll : lu.length = 1792 := pack_len _
    rw [List.take_left' hll, List.drop_left' hll]
    simp only
    rw [hdec]
  · have a := C22_sha3 32 (by decide) (by decide) (key.take 32) (by rw [List.take_of_length_le (by omega), hkl]; decide)
    have b := C22_sha3 32 (by decide) (by decide) ((B 32 t2).1.take 32) (by rw [List.take_of_length_le (by rw [M]), M]; decide)
    rw [dK]
    rw [List.take_of_length_le (by rw [M])] at b
    rw [List.take_of_length_le (by omega)] at a
    show bitsLSB (hashKey key) = _
    have hk1 : hashKey key = (Sha3.hash (key.foldl Sha3.process (Sha3.new 32))).1 := by
      unfold hashKey; rw [List.take_of_length_le (by omega)]
    have hk2 : key = (Sha3.hash ((B 32 t2).1.foldl Sha3.process (Sha3.new 32))).1 := by
      rw [hkey]; unfold hashKey; rw [List.take_of_length_le (by rw [M])]
    rw [hk1, a.1]
    conv_lhs => rw [hk2]
    rw [b.1]

/-- C54. Key agreement.  Let the server's generator produce the bytes `bs` and the client's the bytes `bc`; the noise
polynomials of the scheme are read from them.  If for each of the 256 key positions the four coefficients of
`e·s' - e'·s + e''` (product in ℤ[x]/(x^1024+1)) have absolute values adding up to at most 9215, then `server_2` computes
the key that `client` computed - SHA3-256 applied twice to the client's 32 key bytes - for every seed and every such noise. -/
theorem C54_agree (nextS : σ → Nhs.Byte × σ) (nextC : τ → Nhs.Byte × τ) (rs : σ) (rc : τ) (bs bc : List Nhs.Byte)
    (hbs : bs = (draw nextS 8224 rs).1) (hbc : bc = (draw nextC 12320 rc).1)
    (hn : ∀ i < 256, ∑ c ∈ Finset.range 4, |negMul (noise (bs.drop 32)) (noise bc) (i + 256 * c) -
      negMul (noise (bc.drop 4096)) (noise (bs.drop 4128)) (i + 256 * c) + noise (bc.drop 8224) (i + 256 * c)| ≤ 9215) :
    server2 (server1 nextS rs).2.1 (client nextC rc (server1 nextS rs).1).1 = (client nextC rc (server1 nextS rs).1).2.1 ∧
    bitsLSB (client nextC rc (server1 nextS rs).1).2.1 = Spec.Sha3.sha3 256 (Spec.Sha3.sha3 256 (bitsLSB ((bc.drop 8192).take 32))) := by
  rw [server1_G, client_G, show getbytes nextS 32 = draw nextS 32 from funext (getbytes_eq nextS 32), show getbytes nextC 32 = draw nextC 32 from funext (getbytes_eq nextC 32)]
  exact agree_gen (draw nextS) (draw nextC) (error nextS) (error nextC) (draw_add nextS) (draw_add nextC) (draw_len nextS) (draw_len nextC)
    (error_at nextS) (error_at nextC) (error_zv nextS) (error_zv nextC) (error_is nextC) rs rc bs bc hbs hbc hn

/-- a byte source counting its calls and producing ff ff 00 00 ff ff 00 00 ... -/
def blinker (s : Nat) : Nhs.Byte × Nat := (if s % 4 < 2 then 255 else 0, s + 1)

theorem blinker_getD : ∀ (n s i : Nat), i < n → (draw blinker n s).1.getD i 0 = (if (s + i) % 4 < 2 then 255 else 0) := by
  intro n
  induction n with
  | zero => intro s i h; omega
  | succ n ih =>
    intro s i h
    rw [draw]
    cases i with
    | zero => rfl
    | succ i =>
      rw [List.getD_cons_succ]
      have := ih (s + 1) i (by omega)
      rw [show s + 1 + i = s + (i + 1) by omega] at this
      exact this

theorem blinker_noise (n k p : Nat) (hk : k % 4 = 0) (h : k + 4 * p + 4 ≤ n) : noise ((draw blinker n 0).1.drop k) p = 16 := by
  have g : ∀ j < 4, ((draw blinker n 0).1.drop k).getD (4 * p + j) 0 = (if j < 2 then 255 else 0) := by
    intro j hj
    rw [List.getD_eq_getElem?_getD, List.getElem?_drop, ← List.getD_eq_getElem?_getD, blinker_getD n 0 _ (by omega)]
    rw [show (0 + (k + (4 * p + j))) % 4 = j by omega]
  unfold noise
  rw [g 1 (by omega), g 2 (by omega), g 3 (by omega), ← Nat.add_zero (4 * p), g 0 (by omega)]
  decide

/-- The hypothesis of `C54_agree` is met by a source for which all noise coefficients are 16, the largest possible. -/
example : server2 (server1 blinker 0).2.1 (client blinker 0 (server1 blinker 0).1).1 = (client blinker 0 (server1 blinker 0).1).2.1 := by
  obtain ⟨S, hS⟩ : ∃ S, S = (draw blinker 8224 0).1 := ⟨_, rfl⟩
  obtain ⟨C, hC⟩ : ∃ C, C = (draw blinker 12320 0).1 := ⟨_, rfl⟩
  refine (C54_agree blinker blinker 0 0 S C hS hC ?_).1
  intro i hi
  have e1 : ∀ p < 1024, noise (S.drop 32) p = 16 := fun p hp => by rw [hS]; exact blinker_noise 8224 32 p (by decide) (by omega)
  have e2 : ∀ p < 1024, noise (S.drop 4128) p = 16 := fun p hp => by rw [hS]; exact blinker_noise 8224 4128 p (by decide) (by omega)
  have e3 : ∀ p < 1024, noise C p = 16 := fun p hp => by
    have := blinker_noise 12320 0 p (by decide) (by omega)
    rw [hC]; rwa [List.drop_zero] at this
  have e4 : ∀ p < 1024, noise (C.drop 4096) p = 16 := fun p hp => by rw [hC]; exact blinker_noise 12320 4096 p (by decide) (by omega)
  have e5 : ∀ p < 1024, noise (C.drop 8224) p = 16 := fun p hp => by rw [hC]; exact blinker_noise 12320 8224 p (by decide) (by omega)
  refine le_trans (Finset.sum_le_sum (g := fun _ => (16 : Int)) fun c hc => ?_) (by simp)
  have hc := Finset.mem_range.1 hc
  rw [negMul_congr (noise (S.drop 32)) (noise C) (noise (C.drop 4096)) (noise (S.drop 4128)) (fun p hp => by rw [e1 p hp, e4 p hp])
    (fun p hp => by rw [e2 p hp, e3 p hp]) _ (by omega), sub_self, e5 _ (by omega)]
  decide
end

end Verif.Props
