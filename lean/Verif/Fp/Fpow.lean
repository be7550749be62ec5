import Verif.Fp.Pow
import Verif.Fp.Pseudo
/- `FP::fpow`: the addition chain computes a fixed power. -/
namespace Verif.Fp
open Verif.Big Spec

section param
variable {α β : Type} {R : α → β → Prop} {sq : α → α} {mu : α → α → α} {z : α} {sq' : β → β} {mu' : β → β → β} {z' : β}

theorem getD_rel {xs : List α} {ys : List β} (h : List.Forall₂ R xs ys) (hz : R z z') (i : Nat) : R (xs.getD i z) (ys.getD i z') := by
  induction h generalizing i with
  | nil => simpa using hz
  | cons h1 h2 ih =>
    cases i with
    | zero => simpa using h1
    | succ i => simpa using ih i

theorem getLastD_rel {xs : List α} {ys : List β} (h : List.Forall₂ R xs ys) (hz : R z z') : R (xs.getLastD z) (ys.getLastD z') := by
  induction h generalizing z z' with
  | nil => simpa using hz
  | cons h1 h2 ih => rw [List.getLastD_cons, List.getLastD_cons]; exact ih h1

theorem sqrN_rel (hs : ∀ a b, R a b → R (sq a) (sq' b)) (k : Nat) (a : α) (b : β) (h : R a b) : R (sqrN sq k a) (sqrN sq' k b) := by
  induction k generalizing a b with
  | zero => exact h
  | succ k ih => exact ih _ _ (hs _ _ h)

theorem fpowKey_rel (hm : ∀ a b c d, R a b → R c d → R (mu a c) (mu' b d)) (hz : R z z') {xp : List α} {yp : List β} (hx : List.Forall₂ R xp yp)
    (i k : Nat) (a : α) (b : β) (h : R a b) : R (fpowKey mu z xp i k a) (fpowKey mu' z' yp i k b) := by
  induction i generalizing k a b with
  | zero => cases k <;> simpa [fpowKey] using h
  | succ i ih =>
    cases k with
    | zero => simpa [fpowKey] using h
    | succ k =>
      simp only [fpowKey]
      split_ifs
      · exact ih _ _ _ h
      · exact ih _ _ _ (hm _ _ _ _ h (getD_rel hx hz i))

theorem fpowTab_rel (hs : ∀ a b, R a b → R (sq a) (sq' b)) (hm : ∀ a b c d, R a b → R c d → R (mu a c) (mu' b d)) (hz : R z z') (nw f m : Nat)
    {xp : List α} {yp : List β} (hx : List.Forall₂ R xp yp) :
    (fpowTab sq mu z nw f m xp).1 = (fpowTab sq' mu' z' nw f m yp).1 ∧
    List.Forall₂ R (fpowTab sq mu z nw f m xp).2 (fpowTab sq' mu' z' nw f m yp).2 := by
  induction f generalizing m xp yp with
  | zero => exact ⟨rfl, hx⟩
  | succ f ih =>
    simp only [fpowTab]
    split_ifs
    · apply ih
      exact List.rel_append hx (.cons (hm _ _ _ _ (getLastD_rel hx hz) (sqrN_rel hs _ _ _ (getLastD_rel hx hz))) .nil)
    · exact ⟨rfl, hx⟩

theorem fpowLow_rel (hs : ∀ a b, R a b → R (sq a) (sq' b)) (hm : ∀ a b c d, R a b → R c d → R (mu a c) (mu' b d)) (hz : R z z')
    {xp : List α} {yp : List β} (hx : List.Forall₂ R xp yp) (j m lo : Nat) (a : α) (b : β) (h : R a b) :
    R (fpowLow sq mu z xp j m lo a) (fpowLow sq' mu' z' yp j m lo b) := by
  induction j generalizing m lo a b with
  | zero => cases lo <;> simpa [fpowLow] using h
  | succ j ih =>
    cases lo with
    | zero => simpa [fpowLow] using h
    | succ lo =>
      simp only [fpowLow]
      split_ifs
      · exact ih _ _ _ _ h
      · exact ih _ _ _ _ (hm _ _ _ _ (sqrN_rel hs _ _ _ h) (getD_rel hx hz j))

theorem fpowKeyOf_rel (hm : ∀ a b c d, R a b → R c d → R (mu a c) (mu' b d)) (hz : R z z') {xp : List α} {yp : List β}
    (hx : List.Forall₂ R xp yp) (k : Nat) : R (fpowKeyOf mu z xp k) (fpowKeyOf mu' z' yp k) := by
  unfold fpowKeyOf
  split_ifs
  · exact hz
  · exact fpowKey_rel hm hz hx _ _ _ _ (getD_rel hx hz _)

theorem fpowRun_rel (hs : ∀ a b, R a b → R (sq a) (sq' b)) (hm : ∀ a b c d, R a b → R c d → R (mu a c) (mu' b d)) (hz : R z z')
    (nw : Nat) {xp : List α} {yp : List β} (hx : List.Forall₂ R xp yp) : R (fpowRun sq mu z nw xp) (fpowRun sq' mu' z' nw yp) := by
  obtain ⟨t1, t2⟩ := fpowTab_rel hs hm hz nw 64 8 hx
  have hlow := fpowLow_rel hs hm hz t2 ((fpowTab sq mu z nw 64 8 xp).2.length - 1) (fpowTab sq mu z nw 64 8 xp).1
    (nw - (fpowTab sq mu z nw 64 8 xp).1) _ _ (getLastD_rel t2 hz)
  unfold fpowRun
  dsimp only
  rw [← t1, ← t2.length_eq]
  exact hlow

/-- the chain respects every relation that squaring and multiplication respect -/
theorem fpowG_rel (hs : ∀ a b, R a b → R (sq a) (sq' b)) (hm : ∀ a b c d, R a b → R c d → R (mu a c) (mu' b d)) (hz : R z z')
    (modbits mc : Nat) (five gm : Bool) (a : α) (b : β) (h : R a b) :
    R (fpowG sq mu z modbits mc five gm a) (fpowG sq' mu' z' modbits mc five gm b) := by
  have r1 := hs _ _ h
  have r2 := hm _ _ _ _ r1 h
  have r3 := hs _ _ r2
  have r4 := hs _ _ r3
  have r5 := hm _ _ _ _ r4 r2
  have r6 := hs _ _ r5
  have r7 := hs _ _ r6
  have r8 := hs _ _ r7
  have r9 := hs _ _ r8
  have r10 := hm _ _ _ _ r9 r5
  have hxp := List.Forall₂.cons h (.cons r1 (.cons r2 (.cons r3 (.cons r4 (.cons r5 (.cons r6 (.cons r7 (.cons r8 (.cons r9 (.cons r10 .nil))))))))))
  have hxq := List.Forall₂.cons h (.cons r2 (.cons r5 (.cons r10 .nil)))
  unfold fpowG
  dsimp only
  generalize (if five = true then (if gm = true then modbits / 2 else modbits) - 3 else (if gm = true then modbits / 2 else modbits) - 2) = n
  generalize (if five = true then (mc + 5) / 8 else (mc + 3) / 4) = c
  have hkey := fpowKeyOf_rel hm hz hxp ((fpowBw 64 c 1 0).1 - c)
  have hlow := fpowRun_rel hs hm hz (n - (fpowBw 64 c 1 0).2) hxq
  split_ifs
  · exact hm _ _ _ _ (sqrN_rel hs _ _ _ (hm _ _ _ _ (hs _ _ hlow) h)) hlow
  · exact hm _ _ _ _ (sqrN_rel hs _ _ _ (hm _ _ _ _ (hs _ _ (hm _ _ _ _ (sqrN_rel hs _ _ _ hlow) hkey)) h)) (hm _ _ _ _ (sqrN_rel hs _ _ _ hlow) hkey)
  · exact hlow
  · exact hm _ _ _ _ (sqrN_rel hs _ _ _ hlow) hkey
end param

/-- the exponent computed by the chain of `fpow` (`none`: the uninitialised key would be used) -/
def Params.fpowExp {C : Nat} (P : Params C) : Option Nat :=
  fpowG (Option.map (2 * ·)) (fun a b => a.bind fun x => b.map fun y => x + y) none P.modbits P.mc.toNat (P.mod8 == 5)
    (P.modtype == .GeneralisedMersenne) (some 1)

/-- The exponent that the chain of `fpow` computes is `(p-5)/8` (for `MOD8 == 5`) or `(p-3)/4`; a decidable fact
about a ROM file. -/
def PlainExp {C : Nat} (P : Params C) (p : Nat) : Prop :=
  if P.mod8 = 5 then p % 8 = 5 ∧ P.fpowExp = some ((p - 5) / 8) else p % 4 = 3 ∧ P.fpowExp = some ((p - 3) / 4)

variable {C : Nat} {P : Params C} {p : Nat} [hp : Fact p.Prime]

theorem fpow_on {s : Nat} (h : MulOn P p s) {a : Fp C} (ha : Normed P p a) (hs : a.xes ≤ s) {e : Nat} (he : P.fpowExp = some e) :
    Normed P p (fpow P a) ∧ residue P p (fpow P a) = residue P p a ^ e ∧ (fpow P a).xes ≤ s := by
  have key := fpowG_rel (R := fun (x : Fp C) (o : Option Nat) => Normed P p x ∧ x.xes ≤ s ∧ ∀ e, o = some e → residue P p x = residue P p a ^ e)
    (sq := sqr P) (mu := mul P) (z := zero P) (sq' := Option.map (2 * ·)) (mu' := fun a b => a.bind fun x => b.map fun y => x + y) (z' := none)
    (by
      rintro x o ⟨h1, hx1, h2⟩
      obtain ⟨s1, s2⟩ := h.sqr_on _ h1 hx1
      refine ⟨s1, h.two, ?_⟩
      intro e he
      cases o with
      | none => simp at he
      | some f =>
        have : 2 * f = e := by simpa using he
        rw [s2, h2 f rfl, ← this, two_mul, pow_add])
    (by
      rintro x o y o' ⟨h1, hx1, h2⟩ ⟨h3, hx3, h4⟩
      obtain ⟨s1, s2⟩ := h.mul_on _ _ h1 h3 hx1 hx3
      refine ⟨s1, h.two, ?_⟩
      intro e he
      cases o with
      | none => simp at he
      | some f =>
        cases o' with
        | none => simp at he
        | some g =>
          have : f + g = e := by simpa using he
          rw [s2, h2 f rfl, h4 g rfl, ← this, pow_add])
    ⟨(zero_ok h.toConsts).1, by have := h.two; simp [zero]; omega, by simp⟩
    P.modbits P.mc.toNat (P.mod8 == 5) (P.modtype == .GeneralisedMersenne) a (some 1) ⟨ha, hs, by simp⟩
  exact ⟨key.1, key.2.2 e he, key.2.1⟩

theorem fpow_ok (h : FieldOk P p) {a : Fp C} (ha : Normed P p a) {e : Nat} (he : P.fpowExp = some e) :
    Normed P p (fpow P a) ∧ residue P p (fpow P a) = residue P p a ^ e := by
  obtain ⟨h1, h2, _⟩ := fpow_on (h.mulOn (a.xes + 2) (by omega)) ha (by omega) he
  exact ⟨h1, h2⟩

end Verif.Fp
