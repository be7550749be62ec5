import Verif.Big.Word
import Verif.Spec.Limbs
/- Helper lemmas: value, normal form, comparison, addition. -/
namespace Verif.Big
open Spec (limbsVal Normal LimbsWithin)

variable {C : Nat}

theorem pow_split (C k : Nat) (h : k ≤ C) : (2 : Int) ^ C = 2 ^ (C - k) * 2 ^ k := by
  rw [← pow_add]; congr 1; omega

theorem _root_.Spec.Normal.tail {b : Nat} {x : BitVec C} {xs : Limbs C} (h : Normal b (x :: xs)) : Normal b xs := by
  cases xs with
  | nil => trivial
  | cons y r => exact h.2

theorem _root_.Spec.Normal.head {b : Nat} {x : BitVec C} {xs : Limbs C} (h : Normal b (x :: xs)) (hne : xs ≠ []) :
    0 ≤ x.toInt ∧ x.toInt < 2 ^ b := by
  cases xs with
  | nil => exact absurd rfl hne
  | cons y r => exact h.1

theorem _root_.Spec.Normal.cons {b : Nat} {x : BitVec C} {xs : Limbs C} (h1 : 0 ≤ x.toInt) (h2 : x.toInt < 2 ^ b)
    (h : Normal b xs) : Normal b (x :: xs) := by
  cases xs with
  | nil => trivial
  | cons y r => exact ⟨⟨h1, h2⟩, h⟩

theorem normGo_spec {b : Nat} (ok : Ok C b) (ws : Limbs C) (carry : BitVec C) (hne : ws ≠ [])
    (hs : LimbsWithin (2 ^ (C - 2)) ws) (hc1 : -2 ^ (C - 3) ≤ carry.toInt) (hc2 : carry.toInt ≤ 2 ^ (C - 3)) :
    (normGo b carry ws).length = ws.length ∧ Normal b (normGo b carry ws)
      ∧ limbsVal b (normGo b carry ws) = limbsVal b ws + carry.toInt := by
  have hbC := ok.hC
  have hb := ok.hb
  induction ws generalizing carry with
  | nil => exact absurd rfl hne
  | cons x xs ih =>
    have hx := hs x (by simp)
    have e2 : (2 : Int) ^ (C - 2) = 2 * 2 ^ (C - 3) := by
      rw [show C - 2 = (C - 3) + 1 by omega, pow_succ]; ring
    have e1 : (2 : Int) ^ (C - 1) = 4 * 2 ^ (C - 3) := by
      rw [show C - 1 = (C - 3) + 2 by omega, pow_add]; ring
    have hE := two_pow_pos' (C - 3)
    have hd : (x + carry).toInt = x.toInt + carry.toInt :=
      toInt_add_of _ _ (by omega) (by omega) (by omega)
    cases xs with
    | nil =>
      refine ⟨rfl, trivial, ?_⟩
      simp only [normGo, limbsVal, hd]; ring
    | cons y r =>
      have hB : (4 : Int) ≤ 2 ^ b := by
        calc (4 : Int) = 2 ^ 2 := by norm_num
          _ ≤ 2 ^ b := pow_le_pow_right₀ (by norm_num) (by omega)
      have hBpos : (0 : Int) < 2 ^ b := by omega
      have hcar : ((x + carry).sshiftRight b).toInt = (x.toInt + carry.toInt) / 2 ^ b := by
        rw [toInt_sshr, hd]
      have hmul : 4 * 2 ^ (C - 3) ≤ (2 : Int) ^ (C - 3) * 2 ^ b := by
        have := mul_le_mul_of_nonneg_left hB hE.le
        linarith
      have hlo : -2 ^ (C - 3) ≤ (x.toInt + carry.toInt) / 2 ^ b := by
        rw [Int.le_ediv_iff_mul_le hBpos]; linarith
      have hhi : (x.toInt + carry.toInt) / 2 ^ b ≤ 2 ^ (C - 3) :=
        Int.ediv_le_of_le_mul hBpos (by linarith)
      have IH := ih ((x + carry).sshiftRight b) (by simp) (fun z hz => hs z (by simp only [List.mem_cons] at hz ⊢; tauto))
        (by rw [hcar]; exact hlo) (by rw [hcar]; exact hhi)
      obtain ⟨i1, i2, i3⟩ := IH
      have hlow : ((x + carry) &&& bmask C b).toInt = (x.toInt + carry.toInt) % 2 ^ b := by
        rw [toInt_and_mask _ b (by omega), hd]
      show (((x + carry) &&& bmask C b) :: normGo b ((x + carry).sshiftRight b) (y :: r)).length = _ ∧ _
      refine ⟨by simp [i1], ?_, ?_⟩
      · exact Normal.cons (by rw [hlow]; exact Int.emod_nonneg _ hBpos.ne')
          (by rw [hlow]; exact Int.emod_lt_of_pos _ hBpos) i2
      · show limbsVal b (((x + carry) &&& bmask C b) :: normGo b ((x + carry).sshiftRight b) (y :: r)) = _
        simp only [limbsVal] at i3 ⊢
        rw [i3, hlow, hcar]
        have := Int.emod_add_mul_ediv (x.toInt + carry.toInt) (2 ^ b)
        linarith

theorem norm_rep {b : Nat} (ok : Ok C b) (ws : Limbs C) (hne : ws ≠ []) (hs : LimbsWithin (2 ^ (C - 2)) ws) :
    Rep b ws.length (norm b ws) (limbsVal b ws) := by
  have h := normGo_spec ok ws 0 hne hs (by have := two_pow_pos' (C - 3); simp)
    (by have := two_pow_pos' (C - 3); simp)
  refine ⟨h.1, h.2.1, ?_⟩
  have := h.2.2
  simpa [norm] using this

theorem comp_spec {b : Nat} (xs ys : Limbs C) (hl : xs.length = ys.length) (hx : Normal b xs) (hy : Normal b ys) :
    comp xs ys = Int.sign (limbsVal b xs - limbsVal b ys) := by
  have hB := two_pow_pos' b
  induction xs generalizing ys with
  | nil => cases ys with
    | nil => simp [comp, limbsVal]
    | cons => simp at hl
  | cons x xs ih =>
    cases ys with
    | nil => simp at hl
    | cons y ys =>
      have hl' : xs.length = ys.length := by simpa using hl
      have IH := ih ys hl' hx.tail hy.tail
      simp only [comp, limbsVal, IH]
      by_cases he : limbsVal b xs = limbsVal b ys
      · have h0 : (limbsVal b xs - limbsVal b ys).sign = 0 := by rw [he, sub_self]; rfl
        rw [h0, he]
        have h1 : x.toInt + 2 ^ b * limbsVal b ys - (y.toInt + 2 ^ b * limbsVal b ys) = x.toInt - y.toInt := by ring
        rw [h1]
        simp only [ne_eq, not_true_eq_false, if_false]
        by_cases hxy : x = y
        · simp [hxy]
        · rw [if_neg hxy]
          have hne : x.toInt ≠ y.toInt := fun h => hxy (BitVec.eq_of_toInt_eq h)
          rw [BitVec.slt_eq_decide]
          by_cases hlt : y.toInt < x.toInt
          · rw [if_pos (by simpa using hlt), Int.sign_eq_one_of_pos (by omega)]
          · rw [if_neg (by simpa using hlt), Int.sign_eq_neg_one_of_neg (by omega)]
      · have hne : xs ≠ [] := by
          intro h; subst h
          have : ys = [] := by simpa using hl'.symm
          subst this; exact he rfl
        have hne' : ys ≠ [] := by
          intro h; subst h; exact hne (by simpa using hl')
        have h1 := hx.head hne
        have h2 := hy.head hne'
        rcases lt_or_gt_of_ne he with hlt | hgt
        · have hs : (limbsVal b xs - limbsVal b ys).sign = -1 := Int.sign_eq_neg_one_of_neg (by omega)
          rw [hs, if_pos (by decide)]
          symm
          apply Int.sign_eq_neg_one_of_neg
          have : 2 ^ b * (limbsVal b xs + 1) ≤ 2 ^ b * limbsVal b ys :=
            mul_le_mul_of_nonneg_left (by omega) hB.le
          linarith
        · have hs : (limbsVal b xs - limbsVal b ys).sign = 1 := Int.sign_eq_one_of_pos (by omega)
          rw [hs, if_pos (by decide)]
          symm
          apply Int.sign_eq_one_of_pos
          have : 2 ^ b * (limbsVal b ys + 1) ≤ 2 ^ b * limbsVal b xs :=
            mul_le_mul_of_nonneg_left (by omega) hB.le
          linarith

/-- Normal form is canonical. -/
theorem normal_unique {b : Nat} (xs ys : Limbs C) (hl : xs.length = ys.length) (hx : Normal b xs)
    (hy : Normal b ys) (hv : limbsVal b xs = limbsVal b ys) : xs = ys := by
  have hB := two_pow_pos' b
  induction xs generalizing ys with
  | nil => cases ys with
    | nil => rfl
    | cons => simp at hl
  | cons x xs ih =>
    cases ys with
    | nil => simp at hl
    | cons y ys =>
      have hl' : xs.length = ys.length := by simpa using hl
      simp only [limbsVal] at hv
      by_cases hne : xs = []
      · subst hne
        have : ys = [] := by simpa using hl'.symm
        subst this
        simp only [limbsVal, mul_zero, add_zero] at hv
        rw [BitVec.eq_of_toInt_eq hv]
      · have hne' : ys ≠ [] := by intro h; subst h; exact hne (by simpa using hl')
        have h1 := hx.head hne
        have h2 := hy.head hne'
        have hveq : limbsVal b xs = limbsVal b ys := by
          by_contra hcon
          rcases lt_or_gt_of_ne hcon with hlt | hgt
          · have : 2 ^ b * (limbsVal b xs + 1) ≤ 2 ^ b * limbsVal b ys :=
              mul_le_mul_of_nonneg_left (by omega) hB.le
            linarith
          · have : 2 ^ b * (limbsVal b ys + 1) ≤ 2 ^ b * limbsVal b xs :=
              mul_le_mul_of_nonneg_left (by omega) hB.le
            linarith
        rw [hveq] at hv
        rw [ih ys hl' hx.tail hy.tail hveq, BitVec.eq_of_toInt_eq (by omega : x.toInt = y.toInt)]

/-! ### linear operations -/

theorem zipWith_val {b : Nat} (op : BitVec C → BitVec C → BitVec C) (c : Int)
    (xs ys : Limbs C) (hl : xs.length = ys.length)
    (h : ∀ i, i < xs.length → (op (at' xs i) (at' ys i)).toInt = (at' xs i).toInt + c * (at' ys i).toInt) :
    limbsVal b (List.zipWith op xs ys) = limbsVal b xs + c * limbsVal b ys := by
  induction xs generalizing ys with
  | nil => cases ys with
    | nil => simp [limbsVal]
    | cons => simp at hl
  | cons x xs ih =>
    cases ys with
    | nil => simp at hl
    | cons y ys =>
      have h0 := h 0 (by simp)
      simp only [at', List.getD_cons_zero] at h0
      have IH := ih ys (by simpa using hl) (fun i hi => by
        have := h (i + 1) (by simpa using hi)
        simpa [at'] using this)
      simp only [List.zipWith_cons_cons, limbsVal, IH, h0]; ring

theorem at'_mem (w : Limbs C) (i : Nat) (h : i < w.length) : at' w i ∈ w := by
  unfold at'
  rw [List.getD_eq_getElem?_getD, List.getElem?_eq_getElem h]
  exact List.getElem_mem h

theorem within_mono {S T : Int} (h : S ≤ T) (w : Limbs C) (hw : LimbsWithin S w) : LimbsWithin T w :=
  fun x hx => ⟨by have := hw x hx; omega, by have := hw x hx; omega⟩

theorem add_val {b : Nat} (hC : 0 < C) (xs ys : Limbs C) (hl : xs.length = ys.length) (S T : Int)
    (hx : LimbsWithin S xs) (hy : LimbsWithin T ys) (hST : S + T < 2 ^ (C - 1)) :
    limbsVal b (add xs ys) = limbsVal b xs + limbsVal b ys := by
  have := zipWith_val (b := b) (· + ·) 1 xs ys hl (fun i hi => by
    have h1 := hx _ (at'_mem xs i hi)
    have h2 := hy _ (at'_mem ys i (by omega))
    rw [toInt_add_of _ _ hC (by omega) (by omega)]; ring)
  rw [add, this, one_mul]

theorem sub_val {b : Nat} (hC : 0 < C) (xs ys : Limbs C) (hl : xs.length = ys.length) (S T : Int)
    (hx : LimbsWithin S xs) (hy : LimbsWithin T ys) (hST : S + T < 2 ^ (C - 1)) :
    limbsVal b (sub xs ys) = limbsVal b xs - limbsVal b ys := by
  have := zipWith_val (b := b) (· - ·) (-1) xs ys hl (fun i hi => by
    have h1 := hx _ (at'_mem xs i hi)
    have h2 := hy _ (at'_mem ys i (by omega))
    rw [toInt_sub_of _ _ hC (by omega) (by omega)]; ring)
  rw [sub, this]; ring

theorem zipWith_within (op : BitVec C → BitVec C → BitVec C) (S T U : Int)
    (h : ∀ x y : BitVec C, (-S ≤ x.toInt ∧ x.toInt ≤ S) → (-T ≤ y.toInt ∧ y.toInt ≤ T) →
      -U ≤ (op x y).toInt ∧ (op x y).toInt ≤ U)
    (xs ys : Limbs C) (hx : LimbsWithin S xs) (hy : LimbsWithin T ys) :
    LimbsWithin U (List.zipWith op xs ys) := by
  induction xs generalizing ys with
  | nil => intro z hz; simp at hz
  | cons x xs ih =>
    cases ys with
    | nil => intro z hz; simp at hz
    | cons y ys =>
      intro z hz
      simp only [List.zipWith_cons_cons, List.mem_cons] at hz
      rcases hz with rfl | hz
      · exact h x y (hx x (by simp)) (hy y (by simp))
      · exact ih ys (fun a ha => hx a (by simp [ha])) (fun a ha => hy a (by simp [ha])) z hz

theorem add_within (hC : 0 < C) (xs ys : Limbs C) (S T : Int)
    (hx : LimbsWithin S xs) (hy : LimbsWithin T ys) (hST : S + T < 2 ^ (C - 1)) :
    LimbsWithin (S + T) (add xs ys) := by
  apply zipWith_within _ S T (S + T) _ xs ys hx hy
  intro x y h1 h2
  rw [toInt_add_of _ _ hC (by omega) (by omega)]; omega

theorem sub_within (hC : 0 < C) (xs ys : Limbs C) (S T : Int)
    (hx : LimbsWithin S xs) (hy : LimbsWithin T ys) (hST : S + T < 2 ^ (C - 1)) :
    LimbsWithin (S + T) (sub xs ys) := by
  apply zipWith_within _ S T (S + T) _ xs ys hx hy
  intro x y h1 h2
  rw [toInt_sub_of _ _ hC (by omega) (by omega)]; omega

/-! ### Normal forms: limb bounds from value bounds -/

/-- If the value is in `[-T·2^(b(n-1)), T·2^(b(n-1)))` the top limb is in `[-T, T)`. -/
theorem _root_.Spec.Normal.within {b : Nat} (ws : Limbs C) (h : Normal b ws) (T : Int) (hT : 2 ^ b ≤ T)
    (h1 : -(T * 2 ^ (b * (ws.length - 1))) ≤ limbsVal b ws)
    (h2 : limbsVal b ws < T * 2 ^ (b * (ws.length - 1))) : LimbsWithin T ws := by
  have hB := two_pow_pos' b
  induction ws with
  | nil => intro x hx; simp at hx
  | cons x xs ih =>
    by_cases hne : xs = []
    · subst hne
      simp only [limbsVal, List.length_singleton, Nat.sub_self, pow_zero, mul_one, mul_zero,
        add_zero] at h1 h2
      intro z hz
      simp only [List.mem_singleton] at hz
      subst hz
      exact ⟨h1, h2.le⟩
    · have hh := h.head hne
      have hlen : 0 < xs.length := List.length_pos_of_ne_nil hne
      have e : b * ((x :: xs).length - 1) = b * (xs.length - 1) + b := by
        rw [List.length_cons, Nat.add_sub_cancel]
        conv => lhs; rw [show xs.length = (xs.length - 1) + 1 by omega, Nat.mul_succ]
      rw [e, pow_add] at h1 h2
      simp only [limbsVal] at h1 h2
      have hr := ih h.tail
        (by
          by_contra hc
          push Not at hc
          have : 2 ^ b * (limbsVal b xs + 1) ≤ 2 ^ b * (-(T * 2 ^ (b * (xs.length - 1)))) :=
            mul_le_mul_of_nonneg_left (by omega) hB.le
          nlinarith)
        (by
          by_contra hc
          push Not at hc
          have : 2 ^ b * (T * 2 ^ (b * (xs.length - 1))) ≤ 2 ^ b * limbsVal b xs :=
            mul_le_mul_of_nonneg_left hc hB.le
          nlinarith)
      intro z hz
      simp only [List.mem_cons] at hz
      rcases hz with rfl | hz
      · constructor <;> omega
      · exact hr z hz

/-- Bounds on the value from bounds on limbs of a normalised array. -/
theorem _root_.Spec.Normal.val_bounds {b : Nat} (ws : Limbs C) (hne : ws ≠ []) (h : Normal b ws) (T : Int)
    (hw : LimbsWithin T ws) : -(T * 2 ^ (b * (ws.length - 1))) ≤ limbsVal b ws ∧
      limbsVal b ws < (T + 1) * 2 ^ (b * (ws.length - 1)) := by
  have hB := two_pow_pos' b
  induction ws with
  | nil => exact absurd rfl hne
  | cons x xs ih =>
    by_cases hnil : xs = []
    · subst hnil
      have := hw x (by simp)
      simp only [limbsVal, List.length_singleton, Nat.sub_self, pow_zero, mul_one, mul_zero,
        add_zero]
      omega
    · have hh := h.head hnil
      have hlen : 0 < xs.length := List.length_pos_of_ne_nil hnil
      have e : b * ((x :: xs).length - 1) = b * (xs.length - 1) + b := by
        rw [List.length_cons, Nat.add_sub_cancel]
        conv => lhs; rw [show xs.length = (xs.length - 1) + 1 by omega, Nat.mul_succ]
      have IH := ih hnil h.tail (fun z hz => hw z (by simp [hz]))
      rw [e, pow_add]
      simp only [limbsVal]
      constructor
      · have := mul_le_mul_of_nonneg_left IH.1 hB.le
        nlinarith
      · have : 2 ^ b * (limbsVal b xs + 1) ≤ 2 ^ b * ((T + 1) * 2 ^ (b * (xs.length - 1))) :=
          mul_le_mul_of_nonneg_left (by omega) hB.le
        nlinarith

end Verif.Big
