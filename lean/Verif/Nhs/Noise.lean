import Verif.Nhs.Compress
/- Helper lemmas: noise and public polynomial of `nhs.rs`. -/
namespace Verif.Nhs
open Spec.Nhs (q ones noise)
open Spec (draw)

theorem count_le (f : Nat → Bool) (n : Nat) : (List.range n).countP f ≤ n := by
  have := List.countP_le_length (p := f) (l := List.range n); simpa using this

theorem bit0 (x : I32) (k : Nat) (hx : x.msb = false) : ((x.sshiftRight k) &&& 1).toNat = (x.getLsbD k).toNat := by
  rw [BitVec.sshiftRight_eq_of_msb_false hx, BitVec.toNat_and, show (1 : I32).toNat = 2 ^ 1 - 1 from rfl, Nat.and_two_pow_sub_one_eq_mod,
    BitVec.toNat_ushiftRight, ← BitVec.testBit_toNat, Nat.testBit_eq_decide_div_mod_eq, Nat.shiftRight_eq_div_pow]
  have := Nat.mod_two_eq_zero_or_one (x.toNat / 2 ^ k)
  rcases this with h | h <;> simp [h]

theorem countP_succ (f : Nat → Bool) (i : Nat) : (List.range (i + 1)).countP f = (List.range i).countP f + (f i).toNat := by
  rw [List.range_succ, List.countP_append, List.countP_singleton]
  cases h : f i <;> simp

theorem error_fold (n1 n2 : I32) (m1 : n1.msb = false) (m2 : n2.msb = false) : ∀ i, i ≤ 16 →
    ∃ r : I32, (List.range i).foldl (fun (st : I32 × I32 × I32) _ =>
      (st.1 + ((st.2.1 &&& 1) - (st.2.2 &&& 1)), st.2.1.sshiftRight 1, st.2.2.sshiftRight 1)) (0, n1, n2) =
      (r, n1.sshiftRight i, n2.sshiftRight i) ∧
      r.toInt = ((List.range i).countP n1.getLsbD : Int) - ((List.range i).countP n2.getLsbD : Int) := by
  intro i
  induction i with
  | zero => intro _; exact ⟨0, by simp, by simp⟩
  | succ i ih =>
    intro hi
    obtain ⟨r, h1, h2⟩ := ih (by omega)
    rw [List.range_succ, List.foldl_append, h1]
    refine ⟨r + ((n1.sshiftRight i &&& 1) - (n2.sshiftRight i &&& 1)), ?_, ?_⟩
    · simp only [List.foldl_cons, List.foldl_nil, Prod.mk.injEq, true_and]
      exact ⟨(BitVec.sshiftRight_add ..).symm, (BitVec.sshiftRight_add ..).symm⟩
    · have b1 := bit0 n1 i m1
      have b2 := bit0 n2 i m2
      have t1 : (n1.getLsbD i).toNat ≤ 1 := Bool.toNat_le _
      have t2 : (n2.getLsbD i).toNat ≤ 1 := Bool.toNat_le _
      have i1 : Is (n1.sshiftRight i &&& 1) (n1.getLsbD i).toNat := ⟨by omega, b1⟩
      have i2 : Is (n2.sshiftRight i &&& 1) (n2.getLsbD i).toNat := ⟨by omega, b2⟩
      have c1 := count_le n1.getLsbD i
      have c2 := count_le n2.getLsbD i
      have e : ((n1.sshiftRight i &&& 1) - (n2.sshiftRight i &&& 1)).toInt = ((n1.getLsbD i).toNat : Int) - (n2.getLsbD i).toNat := by
        rw [Big.toInt_sub_of _ _ (by omega) (by rw [i1.int, i2.int]; norm_num; omega) (by rw [i1.int, i2.int]; norm_num; omega), i1.int, i2.int]
      rw [Big.toInt_add_of _ _ (by omega) (by rw [h2, e]; norm_num; omega) (by rw [h2, e]; norm_num; omega), h2, e, ← List.range_succ,
        countP_succ, countP_succ]
      push_cast
      ring

theorem two_bytes (b0 b1 : Byte) : Is ((b0.setWidth 32 : I32) + (b1.setWidth 32 : I32) <<< 8) (2 ^ 8 * b1.toNat + b0.toNat) := by
  have h0 := b0.isLt; have h1 := b1.isLt
  have h := (byte_is b0).add (shl_is (byte_is b1) 8 (by omega)) (by omega)
  exact ⟨by omega, h.nat.trans (by omega)⟩

theorem count_bytes (b0 b1 : Byte) (x : I32) (h : x.toNat = 2 ^ 8 * b1.toNat + b0.toNat) :
    (List.range 16).countP x.getLsbD = ones b0 + ones b1 := by
  have e : ∀ j, x.getLsbD j = if j < 8 then b0.getLsbD j else b1.getLsbD (j - 8) := by
    intro j
    rw [← BitVec.testBit_toNat, h, Nat.testBit_two_pow_mul_add _ b0.isLt]
    simp only [BitVec.testBit_toNat]
  unfold ones
  rw [show List.range 16 = [0, 1, 2, 3, 4, 5, 6, 7, 8, 9, 10, 11, 12, 13, 14, 15] from rfl, show List.range 8 = [0, 1, 2, 3, 4, 5, 6, 7] from rfl]
  simp only [List.countP_cons, List.countP_nil, e]
  norm_num
  omega

theorem ones_le (b : Byte) : ones b ≤ 8 := count_le _ 8

theorem msb_of_is {x : I32} {v : Nat} (h : Is x v) : x.msb = false := by
  rw [BitVec.msb_eq_decide, h.nat]; have := h.lt; simp; omega

theorem errorCoef_int (b0 b1 b2 b3 : Byte) :
    (errorCoef b0 b1 b2 b3).toInt = ((ones b0 + ones b1 : Nat) : Int) - (ones b2 + ones b3 : Nat) + q := by
  have h1 := two_bytes b0 b1
  have h2 := two_bytes b2 b3
  obtain ⟨r, e, hr⟩ := error_fold _ _ (msb_of_is h1) (msb_of_is h2) 16 (le_refl _)
  rw [count_bytes b0 b1 _ h1.nat, count_bytes b2 b3 _ h2.nat] at hr
  unfold errorCoef
  simp only
  rw [e]
  have := ones_le b0; have := ones_le b1; have := ones_le b2; have := ones_le b3
  simp only
  have hq : (q : Int) = 12289 := rfl
  rw [Big.toInt_add_of _ _ (by omega) (by rw [hr, is_prime.int, hq]; norm_num; omega) (by rw [hr, is_prime.int, hq]; norm_num; omega), hr, is_prime.int]

section
variable {σ : Type} (next : σ → Byte × σ)

theorem draw_add (m n : Nat) (s : σ) :
    draw next (m + n) s = ((draw next m s).1 ++ (draw next n (draw next m s).2).1, (draw next n (draw next m s).2).2) := by
  induction m generalizing s with
  | zero => simp [draw]
  | succ m ih => rw [Nat.succ_add]; simp only [draw]; rw [ih]; rfl

theorem draw_len (n : Nat) (s : σ) : (draw next n s).1.length = n := by
  induction n generalizing s with
  | zero => rfl
  | succ n ih => simp [draw, ih]

theorem getbytes_eq (n : Nat) (s : σ) : getbytes next n s = draw next n s := by
  induction n generalizing s with
  | zero => rfl
  | succ n ih => simp only [getbytes, draw]; rw [ih]

theorem errorLoop_eq (n : Nat) (s : σ) : (errorLoop next n s).2 = (draw next (4 * n) s).2 ∧
    ∀ p < n, ((errorLoop next n s).1.getD p 0).toInt = noise (draw next (4 * n) s).1 p + q := by
  induction n generalizing s with
  | zero => exact ⟨rfl, fun p hp => by omega⟩
  | succ n ih =>
    simp only [errorLoop]
    obtain ⟨a, b⟩ := ih (next (next (next (next s).2).2).2).2
    rw [show 4 * (n + 1) = 4 * n + 1 + 1 + 1 + 1 by ring]
    simp only [draw]
    refine ⟨a, fun p hp => ?_⟩
    cases p with
    | zero => rw [List.getD_cons_zero, errorCoef_int]; simp [noise]
    | succ p =>
      rw [List.getD_cons_succ, b p (by omega)]
      unfold noise
      simp only [show 4 * (p + 1) = 4 * p + 1 + 1 + 1 + 1 by ring, List.getD_cons_succ,
        show ∀ k, 4 * p + 1 + 1 + 1 + 1 + k = 4 * p + k + 1 + 1 + 1 + 1 from fun k => by ring]

theorem error_state (s : σ) : (error next s).2 = (draw next 4096 s).2 := by
  have h := (errorLoop_eq next DEGREE s).1
  rw [show 4 * DEGREE = 4096 from rfl] at h
  simp only [error]
  exact h

theorem noise_le (l : List Byte) (p : Nat) : -16 ≤ noise l p ∧ noise l p ≤ 16 := by
  unfold noise
  have := ones_le (l.getD (4 * p) 0); have := ones_le (l.getD (4 * p + 1) 0)
  have := ones_le (l.getD (4 * p + 2) 0); have := ones_le (l.getD (4 * p + 3) 0)
  constructor <;> omega

theorem error_is (s : σ) (p : Nat) (hp : p < 1024) :
    Is ((error next s).1 p) (noise (draw next 4096 s).1 p + q).toNat := by
  have h := (errorLoop_eq next DEGREE s).2 p hp
  rw [show 4 * DEGREE = 4096 from rfl] at h
  have hb := noise_le (draw next 4096 s).1 p
  apply is_of_int
  simp only [error]
  refine h.trans ?_
  rw [Int.toNat_of_nonneg (by unfold q; omega)]
end

theorem parseWord_lt (h : List Byte) (j : Nat) : (parseWord h j).toNat < 2 ^ 31 := by
  unfold parseWord
  have b0 : Is ((h.getD j 0 &&& 0x7f).setWidth 32) ((h.getD j 0).toNat % 128) := by
    have := byte_is (h.getD j 0 &&& 0x7f)
    rwa [BitVec.toNat_and, show (0x7f : Byte).toNat = 2 ^ 7 - 1 from rfl, Nat.and_two_pow_sub_one_eq_mod] at this
  have l0 : (h.getD j 0).toNat % 128 < 128 := Nat.mod_lt _ (by decide)
  have l1 := (h.getD (j + 1) 0).isLt; have l2 := (h.getD (j + 2) 0).isLt; have l3 := (h.getD (j + 3) 0).isLt
  have s1 := (shl_is b0 8 (by omega)).add (byte_is (h.getD (j + 1) 0)) (by omega)
  have s2 := (shl_is s1 8 (by omega)).add (byte_is (h.getD (j + 2) 0)) (by omega)
  have s3 := (shl_is s2 8 (by omega)).add (byte_is (h.getD (j + 3) 0)) (by omega)
  simp only
  rw [s3.nat]; exact s3.lt

end Verif.Nhs
