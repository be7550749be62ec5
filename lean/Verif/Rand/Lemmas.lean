import Verif.Rand.Model
import Verif.Spec.Swb
import Verif.Spec.Rand
import Verif.Sha2.Stream
import Mathlib.Tactic.SplitIfs
/- Helper lemmas for `Verif/Rand/Model.lean`. -/
namespace Verif.Rand
open Spec.Swb (W step value stir seedSeq)

/-- borrow word as a flag -/
def bw (c : Bool) : BitVec 32 := if c then 1 else 0

theorem diff_eq (t a : BitVec 32) (c : Bool) :
    let d : Int := (t.toNat : Int) - a.toNat - (if c then 1 else 0)
    t - a - bw c = BitVec.ofInt 32 d ∧
    (if t - a - bw c > t then 1 else if t - a - bw c < t then 0 else bw c) = bw (decide (d < 0)) := by
  intro d
  have hdef : d = (t.toNat : Int) - a.toNat - (if c then 1 else 0) := rfl
  clear_value d
  have ht := t.isLt
  have ha := a.isLt
  have hv : (t - a - bw c).toNat = if d < 0 then (d + 2 ^ 32).toNat else d.toNat := by
    rw [BitVec.toNat_sub, BitVec.toNat_sub]
    cases c
    · have e : (bw false).toNat = 0 := rfl
      simp only [Bool.false_eq_true, if_false] at hdef
      rw [e]
      split <;> omega
    · have e : (bw true).toNat = 1 := rfl
      simp only [if_true] at hdef
      rw [e]
      split <;> omega
  have hd : (if c then (1 : Int) else 0) = 0 ∨ (if c then (1 : Int) else 0) = 1 := by cases c <;> simp
  have hdl : -(2 ^ 32) ≤ d := by omega
  have hdu : d < 2 ^ 32 := by omega
  constructor
  · apply BitVec.eq_of_toNat_eq
    rw [hv, BitVec.toNat_ofInt]
    split <;> omega
  · simp only [gt_iff_lt, BitVec.lt_def, hv]
    by_cases h : d < 0
    · rw [if_pos h, decide_eq_true h]
      by_cases h2 : t.toNat < (d + 2 ^ 32).toNat
      · rw [if_pos h2]; rfl
      · rw [if_neg h2, if_neg (by omega)]
        cases c
        · simp only [Bool.false_eq_true, if_false] at hdef; omega
        · rfl
    · rw [if_neg h, decide_eq_false h, if_neg (by omega)]
      split
      · rfl
      · cases c
        · rfl
        · simp only [if_true] at hdef; omega

theorem step_length (s : W) (h : s.1.length = 21) : (step s).1.length = 21 := by
  unfold step; simp; omega

theorem iter_length (n : Nat) : ∀ s : W, s.1.length = 21 → (step^[n] s).1.length = 21 := by
  induction n with
  | zero => intro s h; exact h
  | succ n ih => intro s h; rw [Function.iterate_succ_apply]; exact ih _ (step_length s h)

theorem iter_window (s : W) (h : s.1.length = 21) (n : Nat) (hn : n ≤ 21) :
    (step^[n] s).1 = s.1.drop n ++ (List.range n).map (value s) := by
  induction n with
  | zero => simp
  | succ n ih =>
    have ih := ih (by omega)
    have hl := iter_length n s h
    have hl1 := iter_length (n + 1) s h
    have e : (step^[n + 1] s).1 = (step^[n] s).1.drop 1 ++ [value s n] := by
      have e1 : step^[n + 1] s = step (step^[n] s) := Function.iterate_succ_apply' ..
      have : ∃ v, (step^[n + 1] s).1 = (step^[n] s).1.drop 1 ++ [v] := by rw [e1]; exact ⟨_, rfl⟩
      obtain ⟨v, hv⟩ := this
      have : value s n = v := by
        unfold value
        rw [hv, List.getD_eq_getElem?_getD, List.getElem?_append_right (by simp; omega)]
        simp [hl]
      rw [this, hv]
    rw [e, ih, List.range_succ, List.map_append, List.drop_append_of_le_length (by simp; omega), List.drop_drop]
    simp

/-- the refill loop is 21 steps of the recurrence -/
theorem refill (s : W) (h : s.1.length = 21) (n : Nat) (hn : n ≤ 21) :
    (List.range n).foldl sbStep (s.1, bw s.2, 15) =
      ((List.range n).map (value s) ++ s.1.drop n, bw (step^[n] s).2, if n ≤ 6 then 15 + n else n - 6) := by
  induction n with
  | zero => simp
  | succ n ih =>
    have ih := ih (by omega)
    rw [List.range_succ, List.foldl_append, ih, List.foldl_cons, List.foldl_nil]
    have hw := iter_window s h n (by omega)
    have hl := iter_length n s h
    generalize hS : step^[n] s = S at *
    have e1 : step^[n + 1] s = step S := by rw [Function.iterate_succ_apply', hS]
    have ev : value s n = (step S).1.getD 20 0 := by unfold value; rw [e1]
    obtain ⟨x, xs, hx⟩ : ∃ x xs, s.1.drop n = x :: xs := by
      cases hd : s.1.drop n with
      | nil => have := congrArg List.length hd; simp at this; omega
      | cons x xs => exact ⟨x, xs, rfl⟩
    have lx : xs.length = 20 - n := by have := congrArg List.length hx; simp at this; omega
    have hdrop : s.1.drop (n + 1) = xs := by
      have : s.1.drop (n + 1) = (s.1.drop n).drop 1 := by rw [List.drop_drop]
      rw [this, hx]; rfl
    -- the two entries read
    have hlm : ((List.range n).map (value s)).length = n := by simp
    have g0 : ((List.range n).map (value s) ++ s.1.drop n).getD n 0 = S.1.getD 0 0 := by
      rw [hw, hx, List.getD_eq_getElem?_getD, List.getElem?_append_right (by omega), hlm, Nat.sub_self]; rfl
    have gk : ((List.range n).map (value s) ++ s.1.drop n).getD (if (if n ≤ 6 then 15 + n else n - 6) = 21 then 0 else (if n ≤ 6 then 15 + n else n - 6)) 0 = S.1.getD 15 0 := by
      rw [hw, List.getD_eq_getElem?_getD, List.getD_eq_getElem?_getD]
      congr 1
      by_cases h6 : n < 6
      · have : (if (if n ≤ 6 then 15 + n else n - 6) = 21 then 0 else (if n ≤ 6 then 15 + n else n - 6)) = 15 + n := by
          split_ifs <;> omega
        rw [this, List.getElem?_append_right (by omega), hlm, List.getElem?_append_left (by simp; omega)]
        congr 1; omega
      · have : (if (if n ≤ 6 then 15 + n else n - 6) = 21 then 0 else (if n ≤ 6 then 15 + n else n - 6)) = n - 6 := by
          split_ifs <;> omega
        rw [this, List.getElem?_append_left (by omega), List.getElem?_append_right (by simp; omega)]
        congr 1; simp; omega
    unfold sbStep
    dsimp only
    rw [gk, g0]
    obtain ⟨d1, d2⟩ := diff_eq (S.1.getD 15 0) (S.1.getD 0 0) S.2
    have vstep : (step S).1.getD 20 0 = S.1.getD 15 0 - S.1.getD 0 0 - bw S.2 := by
      rw [d1]
      unfold step
      dsimp only
      rw [List.getD_eq_getElem?_getD, List.getElem?_append_right (by simp; omega)]
      simp [hl]
    refine Prod.ext ?_ (Prod.ext ?_ ?_)
    · dsimp only
      rw [List.map_append, List.map_cons, List.map_nil, ev, vstep, hx, hdrop, List.set_append_right _ _ (by omega), hlm, Nat.sub_self]
      simp
    · dsimp only
      rw [e1]
      exact d2
    · dsimp only
      split_ifs <;> omega

attribute [local irreducible] Spec.Swb.step

/-- the generator is in the middle of delivering window `s` -/
structure At (s : W) (p : Nat) (h : RAND) : Prop where
  len : s.1.length = 21
  ira : h.ira = s.1
  bor : h.borrow = bw s.2
  ptr : h.rndptr = p
  lt : p < 21

/-- values still to be delivered -/
def out (s : W) (p j : Nat) : BitVec 32 := if p + 1 + j < 21 then s.1.getD (p + 1 + j) 0 else value s (p + 1 + j - 21)

theorem value_add (s : W) (k j : Nat) : value (step^[k] s) j = value s (k + j) := by
  unfold value
  rw [← Function.iterate_add_apply]
  congr 3
  omega

theorem sbrand_at {s : W} {p : Nat} {h : RAND} (H : At s p h) :
    (sbrand h).1 = out s p 0 ∧
    (if p + 1 < 21 then At s (p + 1) (sbrand h).2 else At (step^[21] s) 0 (sbrand h).2) ∧
    (sbrand h).2.pool = h.pool ∧ (sbrand h).2.poolPtr = h.poolPtr := by
  obtain ⟨h1, h2, h3, h4, h5⟩ := H
  unfold sbrand out
  dsimp only
  rw [h4, h2, h3]
  by_cases hp : p + 1 < 21
  · rw [if_pos hp, if_pos hp, if_pos (by omega)]
    exact ⟨rfl, ⟨h1, rfl, rfl, rfl, hp⟩, rfl, rfl⟩
  · rw [if_neg hp, if_neg hp, if_neg (by omega)]
    have e := refill s h1 21 (by omega)
    have hw := iter_window s h1 21 (by omega)
    rw [List.drop_of_length_le (by omega)] at e hw
    rw [List.append_nil] at e
    rw [List.nil_append] at hw
    rw [show (21 - 6 : Nat) = 15 from rfl, e]
    refine ⟨?_, ⟨iter_length 21 s h1, hw.symm, rfl, rfl, by omega⟩, rfl, rfl⟩
    have : p + 1 + 0 - 21 = 0 := by omega
    rw [this]
    rfl

theorem out_next (s : W) (p j : Nat) (hp : p + 1 < 21) : out s (p + 1) j = out s p (j + 1) := by
  unfold out
  have : p + 1 + 1 + j = p + 1 + (j + 1) := by omega
  rw [this]

theorem out_refill (s : W) (h : s.1.length = 21) (j : Nat) : out (step^[21] s) 0 j = out s 20 (j + 1) := by
  unfold out
  rw [if_neg (show ¬ 20 + 1 + (j + 1) < 21 by omega)]
  have e : 20 + 1 + (j + 1) - 21 = j + 1 := by omega
  rw [e]
  split
  · rename_i hj
    rw [iter_window s h 21 (by omega), List.drop_of_length_le (by omega), List.nil_append, List.getD_eq_getElem?_getD, List.getElem?_map, List.getElem?_range (by omega)]
    have : 0 + 1 + j = j + 1 := by omega
    rw [this]; rfl
  · rw [value_add]; congr 1; omega

theorem sbMany_at (n : Nat) : ∀ {s : W} {p : Nat} {h : RAND}, At s p h →
    (sbMany n h).1 = (List.range n).map (out s p) ∧ (∃ s' p', At s' p' (sbMany n h).2 ∧ ∀ j, out s' p' j = out s p (n + j))
    ∧ (sbMany n h).2.pool = h.pool ∧ (sbMany n h).2.poolPtr = h.poolPtr := by
  induction n with
  | zero => intro s p h H; exact ⟨rfl, ⟨s, p, H, fun j => by simp⟩, rfl, rfl⟩
  | succ n ih =>
    intro s p h H
    obtain ⟨a, b, c, d⟩ := sbrand_at H
    have key : ∃ s1 p1, At s1 p1 (sbrand h).2 ∧ ∀ j, out s1 p1 j = out s p (j + 1) := by
      by_cases hp : p + 1 < 21
      · rw [if_pos hp] at b; exact ⟨_, _, b, fun j => out_next s p j hp⟩
      · rw [if_neg hp] at b
        have := H.lt
        have hp20 : p = 20 := by omega
        subst hp20
        exact ⟨_, _, b, fun j => out_refill s H.len j⟩
    obtain ⟨s1, p1, A1, o1⟩ := key
    obtain ⟨e1, ⟨s2, p2, A2, o2⟩, e3, e4⟩ := ih A1
    unfold sbMany
    dsimp only
    refine ⟨?_, ⟨s2, p2, A2, fun j => ?_⟩, e3.trans c, e4.trans d⟩
    · rw [a, e1, List.range_succ_eq_map, List.map_cons, List.map_map]
      congr 1
      apply List.map_congr_left
      intro j _
      exact o1 j
    · rw [o2, o1]; congr 1; omega

/-- `n` discarded values from the start of a window -/
theorem discard (n : Nat) {s : W} {h : RAND} (H : At s 0 h) :
    At (step^[21 * (n / 21)] s) (n % 21) ((fun h => (sbrand h).2)^[n] h) := by
  induction n with
  | zero => exact H
  | succ n ih =>
    rw [Function.iterate_succ_apply']
    obtain ⟨a, b, c, d⟩ := sbrand_at ih
    by_cases hp : n % 21 + 1 < 21
    · rw [if_pos hp] at b
      have e1 : (n + 1) / 21 = n / 21 := by omega
      have e2 : (n + 1) % 21 = n % 21 + 1 := by omega
      rw [e1, e2]; exact b
    · rw [if_neg hp] at b
      have e1 : 21 * ((n + 1) / 21) = 21 + 21 * (n / 21) := by omega
      have e2 : (n + 1) % 21 = 0 := by omega
      rw [e1, e2, Function.iterate_add_apply]; exact b

end Verif.Rand
