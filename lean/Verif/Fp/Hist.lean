import Verif.Fp.Lazy
import Verif.Spec.FieldHist
import Mathlib.Tactic.FieldSimp
/- The invariant of field-operation histories. -/
namespace Verif.Fp
open Verif.Big Spec

variable {C : Nat} {P : Params C} {p : Nat} [hp : Fact p.Prime]

theorem history_on {okm : Fp C → Fp C → Prop} {okp : Fp C → Prop} (h : ArithOn P p okm okp) (hC : C ≤ 64) {l k : Nat} {a : Fp C} {v : ZMod p}
    (hh : HistoryOn P p okm okp l k a v) : Elem P p l k a v := by
  have hc := h.toConsts
  induction hh with
  | zero => exact .of_normed hc (zero_ok hc)
  | one => exact .of_normed hc h.one_ok
  | newInt c hlt => exact .of_normed hc (h.newInt_ok c hlt)
  | newBig x X hx hX => exact .of_normed hc (h.newBig_ok x X hx hX)
  | norm _ ih => exact ih.norm hc
  | reduce _ ih => exact ih.reduce hc
  | add _ _ hr i1 i2 => exact i1.add hc i2 hr
  | dbl _ hr i1 => rw [two_mul]; exact i1.dbl hc hr
  | neg _ hr i1 => exact i1.neg hc hC hr
  | sub _ _ hr i1 i2 => exact i1.sub hc hC i2 hr
  | rsub _ _ hr i1 i2 => exact i1.rsub hc hC i2 hr
  | mul _ _ h1 h2 ok i1 i2 =>
    obtain ⟨m1, m2⟩ := h.mul_ok _ _ (i1.one h1.1 h1.2) (i2.one h2.1 h2.2) ok
    exact .of_normed hc ⟨m1, by rw [m2, i1.res, i2.res]⟩
  | sqr _ h1 ok i1 =>
    obtain ⟨m1, m2⟩ := h.sqr_ok _ (i1.one h1.1 h1.2) ok
    exact .of_normed hc ⟨m1, by rw [m2, i1.res, pow_two]⟩
  | imul c h0 hlt _ i1 =>
    obtain ⟨m1, m2⟩ := h.imul_ok _ c i1.normed h0 hlt
    exact .of_normed hc ⟨m1, by rw [m2, i1.res, mul_comm]⟩
  | div2 _ i1 =>
    obtain ⟨m1, m2⟩ := div2_ok hc i1.normed (odd_of_prime hc)
    refine .of_normed hc ⟨m1, ?_⟩
    rw [eq_div_iff (two_ne_zero' hc), mul_comm, m2, i1.res]
  | pow e E he hE _ ok i1 =>
    obtain ⟨m1, m2⟩ := h.pow_ok _ _ e E i1.valid i1.room ok he hE
    exact .of_normed hc ⟨m1, by rw [m2, i1.res]⟩
  | @inverse l k a v hk _ ok i1 =>
    obtain ⟨m1, m2⟩ := h.inverse_ok _ a i1.valid i1.room ok (fun hpl => by
      obtain ⟨rfl, rfl⟩ := hk hpl
      exact i1.normed)
    exact .of_normed hc ⟨m1, by rw [m2, i1.res]⟩
  | @cmove l k l' k' a c v w d hd _ _ i1 i2 =>
    rw [cmove_ok (by rw [i1.valid.len, i2.valid.len]) d hd]
    have hroom : Room P (max (max l l') (max k k')) := by
      rcases le_total (max l k) (max l' k') with e | e
      · exact i2.room.mono (by omega)
      · exact i1.room.mono (by omega)
    split_ifs
    · exact i2.mono (le_max_right _ _) (le_max_right _ _) hroom
    · exact i1.mono (le_max_left _ _) (le_max_left _ _) hroom

theorem history_inv (h : Arith P p) (hC : C ≤ 64) {l k : Nat} {a : Fp C} {v : ZMod p} (hh : History P p l k a v) : Elem P p l k a v :=
  history_on h.on hC hh

end Verif.Fp
