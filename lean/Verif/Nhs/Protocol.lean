import Verif.Nhs.Transform
import Verif.Nhs.Noise
import Mathlib.Tactic.FinCases
import Mathlib.Data.Fin.VecNotation
/- Helper lemmas: the exchange of `nhs.rs`, step by step. -/
namespace Verif.Nhs
open Spec.Nhs (q negMul noise)
open Spec (draw)

attribute [local irreducible] draw errorLoop nttLoop inttLoop ctLayer gsLayer Sha3.shake Sha3.hash

theorem cast_toNat {z : Int} (h : 0 ≤ z + q) : (((z + q).toNat : Nat) : K) = (z : K) := by
  have e : (((z + q).toNat : Nat) : Int) = z + q := Int.toNat_of_nonneg h
  have := congrArg (fun x : Int => (x : K)) e
  simp only [Int.cast_natCast, Int.cast_add, ZMod.natCast_self, add_zero] at this
  exact this

/-- every vector is the transform of some polynomial -/
theorem fl_surj (k : Nat) (hk : k < 10) (Y : Nat → K) : ∃ X : Nat → K, ∀ p < 1024, fl (2 ^ k) (2 ^ (9 - k)) X p = Y p := by
  have h2 : ((6145 : Nat) : K) * 2 = 1 := by
    have : ((6145 * 2 : Nat) : K) = ((1 : Nat) : K) := natCast_eq (by decide)
    rw [Nat.cast_mul, Nat.cast_one] at this; exact this
  refine ⟨fun p => if p % (2 * 2 ^ (9 - k)) < 2 ^ (9 - k) then ((6145 : Nat) : K) * (Y p + Y (p + 2 ^ (9 - k)))
    else ((6145 : Nat) : K) * (Y (p - 2 ^ (9 - k)) - Y p) * iot (2 ^ k + p / (2 * 2 ^ (9 - k))), fun p hp => ?_⟩
  obtain ⟨e, h1, h2'⟩ := layer_idx k hk p
  have hlt := h2'.2 hp
  clear h2'
  have hk2 : (2 : Nat) ^ k ≤ 2 ^ 9 := Nat.pow_le_pow_right (by decide) (by omega)
  generalize p / (2 * 2 ^ (9 - k)) = c at e hlt
  generalize p % (2 * 2 ^ (9 - k)) = r at e h1
  generalize 2 ^ (9 - k) = t at *
  have hsi := sig_iot (2 ^ k + c) (by omega)
  subst e
  by_cases hr : r < t
  · obtain ⟨i1, i2⟩ := idx (t := t) (c := c) (r := r) (by omega)
    obtain ⟨j1, j2⟩ := idx (t := t) (c := c) (r := r + t) (by omega)
    rw [fl_lo _ _ _ _ _ hr]
    simp only [i2, j1, j2]
    rw [if_pos hr, if_neg (by omega), show 2 * t * c + (r + t) - t = 2 * t * c + r by omega, Nat.add_assoc]
    linear_combination (((6145 : Nat) : K) * (Y (2 * t * c + r) - Y (2 * t * c + (r + t)))) * hsi + Y (2 * t * c + r) * h2
  · obtain ⟨r, rfl⟩ : ∃ r', r = r' + t := ⟨r - t, by omega⟩
    obtain ⟨i1, i2⟩ := idx (t := t) (c := c) (r := r) (by omega)
    obtain ⟨j1, j2⟩ := idx (t := t) (c := c) (r := r + t) (by omega)
    rw [fl_hi _ _ _ _ _ (by omega)]
    simp only [i2, j1, j2]
    rw [if_pos (by omega), if_neg (by omega), show 2 * t * c + (r + t) - t = 2 * t * c + r by omega, Nat.add_assoc]
    linear_combination (-(((6145 : Nat) : K) * (Y (2 * t * c + r) - Y (2 * t * c + (r + t))))) * hsi + Y (2 * t * c + (r + t)) * h2

theorem fiter_surj : ∀ k, k ≤ 10 → ∀ Y : Nat → K, ∃ X : Nat → K, ∀ p < 1024, fiter X k p = Y p := by
  intro k
  induction k with
  | zero => intro _ Y; exact ⟨Y, fun _ _ => rfl⟩
  | succ k ih =>
    intro hk Y
    obtain ⟨Z, hZ⟩ := fl_surj k (by omega) Y
    obtain ⟨X, hX⟩ := ih (by omega) Z
    exact ⟨X, fun p hp => (fl_congr k (by omega) _ _ hX p hp).trans (hZ p hp)⟩

theorem ev_surj (Y : Nat → K) : ∃ A : Nat → K, ∀ p < 1024, ev A 1024 (node (1024 + p)) = Y p := by
  obtain ⟨X, hX⟩ := fiter_surj 10 (le_refl _) Y
  exact ⟨X, fun p hp => by rw [← (fiter_ten X p hp).1]; exact hX p hp⟩

theorem is_self {x : I32} (h : x.toNat < 2 ^ 31) : Is x x.toNat := ⟨h, rfl⟩

theorem nres_ok {x : I32} (h : x.toNat < 2 ^ 31) : (nres x).toNat ≤ 2 * q ∧ (((nres x).toNat : Nat) : K) = rr * (x.toNat : K) := by
  obtain ⟨r, m, h1, h2, h3⟩ := nres_is (is_self h)
  refine ⟨?_, ?_⟩
  · rw [h1.nat]
    obtain ⟨z, hz, h5⟩ : ∃ z, z ≤ 2 ^ 31 * 0x1620 ∧ r * 2 ^ 32 = z + m * q := ⟨_, Nat.mul_le_mul_right _ h.le, h3⟩
    clear h3
    rw [show q = 12289 from rfl] at h5 ⊢
    omega
  · rw [h1.nat, mont h3, Nat.cast_mul]
    have e : ((0x1620 : Nat) : K) = rr * rr := by
      unfold rr; rw [← Nat.cast_mul]; exact natCast_eq (by decide)
    have := rr_rinv
    rw [e]; linear_combination ((x.toNat : Nat) : K) * rr * this

theorem mul22 {x y : I32} (hx : x.toNat ≤ 2 * q) (hy : y.toNat ≤ 22 * q) :
    (modmul x y).toNat ≤ q + 2 ∧ (((modmul x y).toNat : Nat) : K) = (x.toNat : K) * (y.toNat : K) * rinv := by
  have hq : q = 12289 := rfl
  obtain ⟨r, m, h1, h2, h3⟩ := modmul_is (is_self (x := x) (by omega)) (is_self (x := y) (by omega))
  refine ⟨?_, ?_⟩
  · rw [h1.nat]
    obtain ⟨z, hz, h5⟩ : ∃ z, z ≤ 2 * q * (22 * q) ∧ r * 2 ^ 32 = z + m * q := ⟨_, Nat.mul_le_mul hx hy, h3⟩
    clear h3
    rw [hq] at h5 hz ⊢
    omega
  · rw [h1.nat, mont h3, Nat.cast_mul]

theorem redc_ok {x : I32} (h : x.toNat < q) :
    (redc (x.signExtend 64)).toNat < 2 ^ 14 ∧ (((redc (x.signExtend 64)).toNat : Nat) : K) = (x.toNat : K) * rinv := by
  obtain ⟨r, m, h1, h2, h3⟩ := redcSe_is (is_self (x := x) (by unfold q at h; omega))
  refine ⟨?_, by rw [h1.nat, mont h3]⟩
  rw [h1.nat]
  rw [show q = 12289 from rfl] at h h3
  omega

theorem hard_ok {x : I32} (h : x.toNat < 2 ^ 31) : (hardReduce x).toNat < q ∧ (((hardReduce x).toNat : Nat) : K) = (x.toNat : K) := by
  have h1 := hardReduce_is (is_self h)
  rw [h1.nat]
  exact ⟨Nat.mod_lt _ (by decide), natCast_eq (Nat.mod_mod _ _)⟩

/-- the public value a·s + e sent by either side -/
theorem pub_ok (A S E : Poly) (hA : ∀ p < 1024, (A p).toNat ≤ 2 * q) (hS : ∀ p < 1024, (S p).toNat < 2 ^ 31)
    (hE : ∀ p < 1024, (E p).toNat < 2 ^ 31) (p : Nat) (hp : p < 1024) :
    (redcIt (polyHardReduce (polyAdd (polyMul A (ntt S)) (ntt E))) p).toNat < 2 ^ 14 ∧
    zv (redcIt (polyHardReduce (polyAdd (polyMul A (ntt S)) (ntt E)))) p =
      zv A p * rinv * ev (zv S) 1024 (node (1024 + p)) + ev (zv E) 1024 (node (1024 + p)) := by
  have hq : q = 12289 := rfl
  obtain ⟨s1, s2⟩ := ntt_ok S hS
  obtain ⟨e1, e2⟩ := ntt_ok E hE
  have s2 := s2 p hp
  have e2 := e2 p hp
  have s1 := s1 p hp
  have e1 := e1 p hp
  unfold zv at s2 e2 ⊢
  unfold redcIt polyHardReduce polyAdd polyMul
  obtain ⟨m1, m2⟩ := mul22 (hA p hp) s1
  have ha := (is_self (x := modmul (A p) (ntt S p)) (by omega)).add (is_self (x := ntt E p) (by omega)) (by omega)
  obtain ⟨h1, h2⟩ := hard_ok (x := modmul (A p) (ntt S p) + ntt E p) (by rw [ha.nat]; omega)
  obtain ⟨r1, r2⟩ := redc_ok h1
  refine ⟨r1, ?_⟩
  rw [r2, h2, ha.nat, Nat.cast_add, m2, s2, e2]
  have := rr_rinv
  linear_combination (((A p).toNat : K) * rinv * ev (fun p => ((S p).toNat : K)) 1024 (node (1024 + p)) +
    ev (fun p => ((E p).toNat : K)) 1024 (node (1024 + p))) * this

/-- the secret kept by the server -/
theorem sec_ok (S : Poly) (hS : ∀ p < 1024, (S p).toNat < 2 ^ 31) (p : Nat) (hp : p < 1024) :
    (polyHardReduce (ntt S) p).toNat < 2 ^ 14 ∧ zv (polyHardReduce (ntt S)) p = rr * ev (zv S) 1024 (node (1024 + p)) := by
  obtain ⟨s1, s2⟩ := ntt_ok S hS
  obtain ⟨h1, h2⟩ := hard_ok (x := ntt S p) (by have := s1 p hp; unfold q at this; omega)
  refine ⟨lt_trans h1 (by decide), ?_⟩
  rw [← s2 p hp]
  exact h2

/-- the product of a received public value and a secret -/
theorem shared_ok (P : Poly) (hP : ∀ p < 1024, (P p).toNat < 2 ^ 14) (S : Poly) (hS : ∀ p < 1024, (S p).toNat ≤ 22 * q)
    (s : Nat → K) (hs : ∀ p < 1024, zv S p = rr * ev s 1024 (node (1024 + p)))
    (C : Nat → K) (hC : ∀ p < 1024, ev C 1024 (node (1024 + p)) = zv P p * ev s 1024 (node (1024 + p)))
    (p : Nat) (hp : p < 1024) :
    ∃ r, Is (intt (polyMul (nresIt P) S) p) r ∧ r < q ∧ (r : K) = C p := by
  refine intt_ok _ (fun p hp => ?_) C (fun p hp => ?_) p hp
  · have := (mul22 (nres_ok (x := P p) (by have := hP p hp; omega)).1 (hS p hp)).1
    unfold polyMul nresIt; omega
  · obtain ⟨n1, n2⟩ := nres_ok (x := P p) (by have := hP p hp; omega)
    have h := (mul22 n1 (hS p hp)).2
    have hs := hs p hp
    rw [hC p hp]
    unfold zv polyMul nresIt at *
    rw [h, n2, hs]
    have := rr_rinv
    linear_combination (rr * ((P p).toNat : K) * ev s 1024 (node (1024 + p))) * this

theorem error_zv {σ : Type} (next : σ → Byte × σ) (s : σ) (p : Nat) (hp : p < 1024) :
    ((error next s).1 p).toNat < 2 ^ 31 ∧ zv (error next s).1 p = ((noise (draw next 4096 s).1 p : Int) : K) := by
  have h := error_is next s p hp
  have hb := noise_le (draw next 4096 s).1 p
  refine ⟨by rw [h.nat]; exact h.lt, ?_⟩
  unfold zv
  rw [h.nat, cast_toNat (by unfold q; omega)]

theorem parse_ok (seed : List Byte) (p : Nat) : (parse seed p).toNat ≤ 2 * q := by
  unfold parse
  exact (nres_ok (parseWord_lt _ _)).1

theorem negMul_cast (a b : Nat → Int) (p : Nat) : ((negMul a b p : Int) : K) = negMul (fun i => (a i : K)) (fun i => (b i : K)) p := by
  unfold negMul
  rw [Int.cast_sum]
  refine Finset.sum_congr rfl fun i _ => ?_
  split <;> simp

theorem negMul_congr {R : Type} [CommRing R] (a b a' b' : Nat → R) (ha : ∀ p < 1024, a p = a' p) (hb : ∀ p < 1024, b p = b' p) (p : Nat) (hp : p < 1024) :
    negMul a b p = negMul a' b' p := by
  unfold negMul
  refine Finset.sum_congr rfl fun i hi => ?_
  have hi := Finset.mem_range.1 hi
  by_cases h : i ≤ p
  · rw [if_pos h, if_pos h, ha i hi, hb (p - i) (by omega)]
  · rw [if_neg h, if_neg h, ha i hi, hb (1024 + p - i) (by omega)]

theorem ev_sub (X Y : Nat → K) (n : Nat) (w : K) : ev (fun p => X p - Y p) n w = ev X n w - ev Y n w := by
  unfold ev; rw [← Finset.sum_sub_distrib]; exact Finset.sum_congr rfl fun _ _ => by ring

theorem ev_congr (X Y : Nat → K) (w : K) (h : ∀ p < 1024, X p = Y p) : ev X 1024 w = ev Y 1024 w := by
  unfold ev; exact Finset.sum_congr rfl fun r hr => by rw [h r (Finset.mem_range.1 hr)]

theorem encode_is (key : List Byte) (p : Nat) (hp : p < 1024) :
    Is (encode key p) ((key.getD (p % 256 / 8) 0 >>> (p % 256 % 8) &&& 1).toNat * 6144) ∧
    (key.getD (p % 256 / 8) 0 >>> (p % 256 % 8) &&& 1).toNat ≤ 1 := by
  have h1 : (key.getD (p % 256 / 8) 0 >>> (p % 256 % 8) &&& 1).toNat ≤ 1 := by
    rw [BitVec.toNat_and, show (1 : Byte).toNat = 2 ^ 1 - 1 from rfl, Nat.and_two_pow_sub_one_eq_mod]; omega
  exact ⟨mul_is (byte_is _) half_prime (by omega), h1⟩

/-- a small noise vector and the sender's message determine what the receiver decodes -/
theorem agree_core (A S E SD ED E2 : Poly) (key : List Byte) (hkey : key.length = 32) (nS nE nSD nED nE2 : Nat → Int)
    (hA : ∀ p < 1024, (A p).toNat ≤ 2 * q)
    (hS : ∀ p < 1024, (S p).toNat < 2 ^ 31 ∧ zv S p = (nS p : K)) (hE : ∀ p < 1024, (E p).toNat < 2 ^ 31 ∧ zv E p = (nE p : K))
    (hSD : ∀ p < 1024, (SD p).toNat < 2 ^ 31 ∧ zv SD p = (nSD p : K)) (hED : ∀ p < 1024, (ED p).toNat < 2 ^ 31 ∧ zv ED p = (nED p : K))
    (hE2 : ∀ p < 1024, Is (E2 p) (nE2 p + q).toNat ∧ -16 ≤ nE2 p ∧ nE2 p ≤ 16)
    (hn : ∀ i < 256, ∑ c ∈ Finset.range 4, |negMul nE nSD (i + 256 * c) - negMul nED nS (i + 256 * c) + nE2 (i + 256 * c)| ≤ 9215)
    (lb lu ls lc : List Byte)
    (eb : lb = pack (redcIt (polyHardReduce (polyAdd (polyMul A (ntt S)) (ntt E)))))
    (eu : lu = pack (redcIt (polyHardReduce (polyAdd (polyMul A (ntt SD)) (ntt ED)))))
    (es : ls = pack (polyHardReduce (ntt S)))
    (ec : lc = compress (polyAdd (polyAdd (intt (polyMul (nresIt (unpack lb)) (ntt SD))) E2) (encode key))) :
    decode (polySoftReduce (polyRsub (intt (polyMul (nresIt (unpack lu)) (unpack ls))) (decompress lc))) = key := by
  have hq : q = 12289 := rfl
  -- transmitted values
  have vb : ∀ p < 1024, (unpack lb p).toNat < 2 ^ 14 ∧ zv (unpack lb) p = zv A p * rinv * ev (zv S) 1024 (node (1024 + p)) + ev (zv E) 1024 (node (1024 + p)) := by
    intro p hp
    have h := fun p hp => pub_ok A S E hA (fun p hp => (hS p hp).1) (fun p hp => (hE p hp).1) p hp
    have e := unpack_pack _ (fun p hp => (h p hp).1) lb eb p hp
    unfold zv at *
    rw [e]
    exact h p hp
  have vu : ∀ p < 1024, (unpack lu p).toNat < 2 ^ 14 ∧ zv (unpack lu) p = zv A p * rinv * ev (zv SD) 1024 (node (1024 + p)) + ev (zv ED) 1024 (node (1024 + p)) := by
    intro p hp
    have h := fun p hp => pub_ok A SD ED hA (fun p hp => (hSD p hp).1) (fun p hp => (hED p hp).1) p hp
    have e := unpack_pack _ (fun p hp => (h p hp).1) lu eu p hp
    unfold zv at *
    rw [e]
    exact h p hp
  have vs : ∀ p < 1024, (unpack ls p).toNat ≤ 22 * q ∧ zv (unpack ls) p = rr * ev (zv S) 1024 (node (1024 + p)) := by
    intro p hp
    have h := fun p hp => sec_ok S (fun p hp => (hS p hp).1) p hp
    have e := unpack_pack _ (fun p hp => (h p hp).1) ls es p hp
    have h := h p hp
    unfold zv at *
    rw [e]
    exact ⟨by omega, h.2⟩
  obtain ⟨sd1, sd2⟩ := ntt_ok SD (fun p hp => (hSD p hp).1)
  -- the public polynomial
  obtain ⟨a, ha⟩ := ev_surj (fun p => zv A p * rinv)
  set W : Nat → K := fun p => negMul (fun p => negMul a (zv SD) p + zv ED p) (zv S) p with hW
  have evW : ∀ p < 1024, ev W 1024 (node (1024 + p)) = zv (unpack lu) p * ev (zv S) 1024 (node (1024 + p)) := by
    intro p hp
    rw [hW, mul_ok _ _ p hp, ev_add, mul_ok _ _ p hp, ha p hp, (vu p hp).2]
  have server := fun p hp => shared_ok (unpack lu) (fun p hp => (vu p hp).1) (unpack ls) (fun p hp => (vs p hp).1) (zv S)
    (fun p hp => (vs p hp).2) W evW p hp
  have client := fun p hp => shared_ok (unpack lb) (fun p hp => (vb p hp).1) (ntt SD) (fun p hp => sd1 p hp) (zv SD) sd2
    (fun p => W p + (negMul (zv E) (zv SD) p - negMul (zv ED) (zv S) p)) (fun p hp => by
      rw [ev_add, ev_sub, evW p hp, mul_ok _ _ p hp, mul_ok _ _ p hp, (vu p hp).2, (vb p hp).2]; ring) p hp
  have noiseK : ∀ p < 1024, negMul (zv E) (zv SD) p - negMul (zv ED) (zv S) p = ((negMul nE nSD p - negMul nED nS p : Int) : K) := by
    intro p hp
    rw [Int.cast_sub, negMul_cast, negMul_cast, negMul_congr _ _ _ _ (fun i hi => (hE i hi).2) (fun i hi => (hSD i hi).2) p hp,
      negMul_congr _ _ _ _ (fun i hi => (hED i hi).2) (fun i hi => (hS i hi).2) p hp]
  set cc := polyAdd (polyAdd (intt (polyMul (nresIt (unpack lb)) (ntt SD))) E2) (encode key) with hcc
  -- what the client compresses
  have hc : ∀ p < 1024, ∃ v, Is (cc p) v ∧ v < 2 ^ 16 ∧
      (v : K) = W p + ((negMul nE nSD p - negMul nED nS p + nE2 p + 6144 * (key.getD (p % 256 / 8) 0 >>> (p % 256 % 8) &&& 1).toNat : Int) : K) := by
    intro p hp
    obtain ⟨r, r1, r2, r3⟩ := client p hp
    obtain ⟨e1, e2⟩ := hE2 p hp
    obtain ⟨k1, k2⟩ := encode_is key p hp
    have h1 := r1.add e1 (by omega)
    have h2 := h1.add k1 (by omega)
    refine ⟨_, h2, by omega, ?_⟩
    rw [Nat.cast_add, Nat.cast_add, r3, cast_toNat (by omega), noiseK p hp]
    push_cast
    ring
  have hdec : ∀ p < 1024, ∃ (k : Nat) (n c : Int), Is (polySoftReduce (polyRsub (intt (polyMul (nresIt (unpack lu)) (unpack ls))) (decompress lc)) p) k ∧
      k < q ∧ (k : Int) = 6144 * (key.getD (p % 256 / 8) 0 >>> (p % 256 % 8) &&& 1).toNat + n + c * q ∧
      |n| ≤ |negMul nE nSD p - negMul nED nS p + nE2 p| + 768 := by
    intro p hp
    obtain ⟨w, w1, w2, w3⟩ := server p hp
    obtain ⟨v, v1, v2, v3⟩ := hc p hp
    have d := decompress_compress cc (fun p hp => by obtain ⟨v, v1, v2, _⟩ := hc p hp; rw [v1.nat]; exact v2) p hp lc ec
    rw [v1.nat] at d
    have dl := lossy_lt v
    have h1 := (d.add is_prime (by omega)).sub w1 (by omega)
    have h2 := softReduce_is h1 (by omega)
    obtain ⟨c, e, hl, he⟩ := lossy_err v
    refine ⟨(lossy v + q - w) % q, negMul nE nSD p - negMul nED nS p + nE2 p + e, ?_⟩
    have hcast : ((((lossy v + q - w) % q : Nat) : Int) : K) = ((6144 * (key.getD (p % 256 / 8) 0 >>> (p % 256 % 8) &&& 1).toNat +
        (negMul nE nSD p - negMul nED nS p + nE2 p + e) : Int) : K) := by
      rw [Int.cast_natCast, natCast_eq (Nat.mod_mod (lossy v + q - w) q), Nat.cast_sub (by omega), Nat.cast_add, ZMod.natCast_self, w3]
      have hl2 := congrArg (fun x : Int => (x : K)) hl
      simp only [Int.cast_natCast, Int.cast_add, Int.cast_mul, ZMod.natCast_self, mul_zero, add_zero] at hl2
      rw [hl2, v3]
      push_cast
      ring
    have hdvd := (ZMod.intCast_eq_intCast_iff_dvd_sub _ _ _).1 hcast.symm
    obtain ⟨g, hg⟩ := hdvd
    refine ⟨g, h2, Nat.mod_lt _ (by decide), by rw [mul_comm g]; omega, ?_⟩
    calc |negMul nE nSD p - negMul nED nS p + nE2 p + e| ≤ |negMul nE nSD p - negMul nED nS p + nE2 p| + |e| := abs_add_le _ _
      _ ≤ _ := by omega
  -- the bits
  set kk := polySoftReduce (polyRsub (intt (polyMul (nresIt (unpack lu)) (unpack ls))) (decompress lc)) with hkk
  have hbit : ∀ i < 256, decodeBit kk i = ((key.getD (i / 8) 0 >>> (i % 8) &&& 1).setWidth 32 : I32) := by
    intro i hi
    obtain ⟨k0, n0, c0, a0, b0, d0, f0⟩ := hdec i (by omega)
    obtain ⟨k1, n1, c1, a1, b1, d1, f1⟩ := hdec (i + 256) (by omega)
    obtain ⟨k2, n2, c2, a2, b2, d2, f2⟩ := hdec (i + 512) (by omega)
    obtain ⟨k3, n3, c3, a3, b3, d3, f3⟩ := hdec (i + 768) (by omega)
    rw [show i % 256 = i by omega] at d0
    rw [show (i + 256) % 256 = i by omega] at d1
    rw [show (i + 512) % 256 = i by omega] at d2
    rw [show (i + 768) % 256 = i by omega] at d3
    have hle := (encode_is key i (by omega)).2
    rw [show i % 256 = i by omega] at hle
    have hsum := hn i hi
    rw [show (4 : Nat) = 0 + 1 + 1 + 1 + 1 from rfl] at hsum
    simp only [Finset.sum_range_succ, Finset.sum_range_zero, zero_add, Nat.mul_zero, Nat.add_zero] at hsum
    rw [show i + 256 * 1 = i + 256 by ring, show i + 256 * (1 + 1) = i + 512 by ring, show i + 256 * (1 + 1 + 1) = i + 768 by ring] at hsum
    rw [decodeBit_eq kk i k0 k1 k2 k3 a0 a1 a2 a3 b0 b1 b2 b3]
    have hbe := decode_tolerance (key.getD (i / 8) 0 >>> (i % 8) &&& 1).toNat hle ![k0, k1, k2, k3] ![n0, n1, n2, n3] ![c0, c1, c2, c3]
      (by intro j; fin_cases j <;> assumption) (by intro j; fin_cases j <;> assumption)
      (by show |n0| + |n1| + |n2| + |n3| ≤ 12287; omega)
    have hbe : (((k0 : Int) - 6144).natAbs + ((k1 : Int) - 6144).natAbs + ((k2 : Int) - 6144).natAbs + ((k3 : Int) - 6144).natAbs < q) ↔
      (key.getD (i / 8) 0 >>> (i % 8) &&& 1).toNat = 1 := hbe
    apply BitVec.eq_of_toNat_eq
    rw [(byte_is _).nat]
    by_cases hb : (key.getD (i / 8) 0 >>> (i % 8) &&& 1).toNat = 1
    · rw [if_pos (hbe.2 hb), hb]; rfl
    · rw [if_neg (fun h => hb (hbe.1 h))]
      have : (key.getD (i / 8) 0 >>> (i % 8) &&& 1).toNat = 0 := by omega
      rw [this]; rfl
  apply list_ext_getD
  · rw [hkey]; simp [decode]
  · intro j hj
    have hj : j < 32 := by simpa [decode] using hj
    have e : (decode kk).getD j 0 = (List.range 8).foldl (fun (kj : Byte) l => (kj >>> 1) + (decodeBit kk (8 * j + l) <<< 7).setWidth 8) 0 := by
      unfold decode
      rw [List.getD_eq_getElem _ _ (by simpa using hj), List.getElem_map, List.getElem_range]
    rw [e, ← byte_bits (key.getD j 0)]
    refine List.foldl_ext _ _ _ fun kj l hl => ?_
    have hl := List.mem_range.1 hl
    rw [hbit (8 * j + l) (by omega), show (8 * j + l) / 8 = j by omega, show (8 * j + l) % 8 = l by omega]

end Verif.Nhs
