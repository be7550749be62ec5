import Verif.Spec.Rom
/- Boolean checks of the consistency conditions and their soundness. -/
namespace Verif.Rom
open Verif.Big Verif.Fp Spec

variable {C : Nat}

instance (b : Nat) (w : List (BitVec C)) : Decidable (Digits b w) :=
  List.decidableBAll (fun x : BitVec C => 0 ≤ x.toInt ∧ x.toInt < 2 ^ b) w

/-- conditions of `Consts` -/
def constsB (P : Params C) (p : Nat) : Bool :=
  decide ((9 ≤ P.b ∧ P.b + 3 ≤ C ∧ C ≤ 2 * P.b) ∧ 2 ≤ P.n ∧ Fits C P.b P.n ∧ P.md.length = P.n ∧ Digits P.b P.md ∧
    limbsVal P.b P.md = p ∧ P.modbits / P.b = P.n - 1 ∧ 2 ^ (P.modbits - 1) ≤ p ∧ p < 2 ^ P.modbits ∧ 0 < P.tbits ∧
    P.modbits + P.sh ≤ P.b * P.n ∧ 5 ≤ P.sh ∧ P.sh + 2 ≤ C / 2)

theorem constsB_sound {P : Params C} {p : Nat} (h : constsB P p = true) : Consts P p := by
  unfold constsB at h
  obtain ⟨⟨a1, a2, a3⟩, b, c, d, e, f, g, i, j, k, l, m, n⟩ := of_decide_eq_true h
  exact ⟨⟨a1, a2, a3⟩, b, c, d, e, f, g, i, j, k, l, m, n⟩

/-- conditions of `Rom.modulusOk` beyond `Consts` -/
def modulusB (r : Rom C) : Bool :=
  match r.P.modtype with
  | .NotSpecial => decide (((at' r.P.md 0).toInt * r.P.mc.toInt + 1) % 2 ^ r.P.b = 0 ∧ r.P.r2.length = r.P.n ∧ Digits r.P.b r.P.r2 ∧
      limbsVal r.P.b r.P.r2 = (2 ^ (r.P.b * r.P.n) * 2 ^ (r.P.b * r.P.n)) % r.p)
  | .PseudoMersenne => decide ((r.p : Int) = 2 ^ r.P.modbits - r.P.mc.toInt ∧ 0 < r.P.mc.toInt)
  | .GeneralisedMersenne => decide (r.p = 2 ^ 448 - 2 ^ 224 - 1 ∧ r.P.modbits = 448)
  | .MontgomeryFriendly => false

theorem modulusB_sound {r : Rom C} (hc : Consts r.P r.p) (h : modulusB r = true) : r.modulusOk := by
  unfold modulusB at h
  unfold Rom.modulusOk
  split at h
  · rename_i ht
    rw [ht]
    obtain ⟨a, b, c, d⟩ := of_decide_eq_true h
    exact { hc with type := ht, mc := a, r2len := b, r2dig := c, r2val := d }
  · rename_i ht; rw [ht]; exact of_decide_eq_true h
  · rename_i ht; rw [ht]; exact of_decide_eq_true h
  · cases h

/-- conditions of `Rom.generatorOk`; `w` is a witness for the ordinate in the Montgomery case -/
def generatorB (r : Rom C) (w : Int) : Bool :=
  match r.ctype with
  | .weierstrass => decide (r.val r.gy ^ 2 % r.p = (r.val r.gx ^ 3 + r.a * r.val r.gx + r.val r.bv) % r.p)
  | .edwards => decide ((r.a * r.val r.gx ^ 2 + r.val r.gy ^ 2) % r.p = (1 + r.val r.bv * r.val r.gx ^ 2 * r.val r.gy ^ 2) % r.p)
  | .montgomery => decide (w ^ 2 % r.p = (r.val r.gx ^ 3 + r.a * r.val r.gx ^ 2 + r.val r.gx) % r.p)

theorem generatorB_sound {r : Rom C} {w : Int} (h : generatorB r w = true) : r.generatorOk := by
  unfold generatorB at h
  unfold Rom.generatorOk
  split at h
  · rename_i ht; rw [ht]; exact of_decide_eq_true h
  · rename_i ht; rw [ht]; exact of_decide_eq_true h
  · rename_i ht; rw [ht]; exact ⟨w, of_decide_eq_true h⟩

/-- all conditions -/
def consistentB (w : Int) (r : Rom C) : Bool :=
  constsB r.P r.p && modulusB r && generatorB r w &&
  decide (r.P.n = 1 + (8 * r.modbytes - 1) / r.P.b ∧ r.P.modbits ≤ 8 * r.modbytes ∧ (r.bI ≠ 0 → r.bI % r.p = r.val r.bv) ∧
    (Digits r.P.b r.bv ∧ Digits r.P.b r.gx ∧ Digits r.P.b r.gy ∧ Digits r.P.b r.order) ∧
    (0 ≤ r.val r.bv ∧ r.val r.bv < r.p ∧ 0 ≤ r.val r.gx ∧ r.val r.gx < r.p ∧ 0 ≤ r.val r.gy ∧ r.val r.gy < r.p) ∧
    (r.val r.order % 2 = 1 ∧ 2 < r.val r.order ∧ 2 * r.val r.order < 2 ^ (r.P.b * r.P.n)) ∧
    (r.cofI ≠ 0 → r.val r.cof = r.cofI) ∧ (r.P.mod8 = 5 ↔ r.p % 8 = 5))

theorem consistentB_sound {w : Int} {r : Rom C} (h : consistentB w r = true) : r.Consistent := by
  unfold consistentB at h
  simp only [Bool.and_eq_true] at h
  obtain ⟨⟨⟨h1, h2⟩, h3⟩, h4⟩ := h
  obtain ⟨a, b, c, d, e, f, g, i⟩ := of_decide_eq_true h4
  have hc := constsB_sound h1
  exact ⟨a, b, hc, modulusB_sound hc h2, c, d, e, generatorB_sound h3, f, g, i⟩

theorem all_consistent {w : Int} {l : List (Rom C)} (h : l.all (consistentB w) = true) : ∀ r ∈ l, r.Consistent := by
  intro r hr
  exact consistentB_sound (List.all_eq_true.1 h r hr)

end Verif.Rom
