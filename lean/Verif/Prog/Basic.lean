import Mathlib.Logic.Function.Basic
/-
Straight-line programs over field elements.

The point formulas of `ecp.rs`, `ecp2.rs` and the tower formulas are sequences of assignments
`t.clone()`, `t.mul(&s)`, `t.add(&s)`, …  Here each such Rust statement is one instruction acting on
named registers, so that the model of a formula is its Rust text, statement by statement.  The same
program is run on stored representatives (`Fp`, `Fp2`, with lazy reduction) and on field elements.
-/
namespace Verif.Prog

/-- One Rust statement on field variables: `d = s.clone()`, `d.mul(&s)`, `d.sqr()`, `d.add(&s)`, `d.sub(&s)`,
`d.rsub(&s)`, `d.dbl()`, `d.neg()`, `d.norm()`, `d.imul(c)`; `un i d` are further unary operations of a
tower field (`mul_ip`, …), `bin i d s` further binary ones (`d.pmul(&s)`, …). -/
inductive Ins (R : Type)
  | copy (d s : R) | mul (d s : R) | sqr (d : R) | add (d s : R) | sub (d s : R) | rsub (d s : R)
  | dbl (d : R) | neg (d : R) | norm (d : R) | imul (d : R) (c : Int) | un (i : Nat) (d : R) | bin (i : Nat) (d s : R)

/-- The operations an implementation (or a field) provides. -/
structure Ops (A : Type) where
  mul : A → A → A
  sqr : A → A
  add : A → A → A
  sub : A → A → A
  rsub : A → A → A
  dbl : A → A
  neg : A → A
  norm : A → A
  imul : A → Int → A
  un : Nat → A → A
  bin : Nat → A → A → A := fun _ a _ => a

variable {R A : Type} [DecidableEq R]

/-- value a statement assigns, and its target -/
def Ins.exec (o : Ops A) (s : R → A) : Ins R → R × A
  | .copy d r => (d, s r)
  | .mul d r => (d, o.mul (s d) (s r))
  | .sqr d => (d, o.sqr (s d))
  | .add d r => (d, o.add (s d) (s r))
  | .sub d r => (d, o.sub (s d) (s r))
  | .rsub d r => (d, o.rsub (s d) (s r))
  | .dbl d => (d, o.dbl (s d))
  | .neg d => (d, o.neg (s d))
  | .norm d => (d, o.norm (s d))
  | .imul d c => (d, o.imul (s d) c)
  | .un i d => (d, o.un i (s d))
  | .bin i d r => (d, o.bin i (s d) (s r))

/-- running a program -/
def run (o : Ops A) : List (Ins R) → (R → A) → (R → A)
  | [], s => s
  | i :: is, s => run o is (Function.update s (i.exec o s).1 (i.exec o s).2)

/-- Abstract operations: `D` describes how lazily reduced a representative is; an operation is `none` when its
operands are not reduced enough. -/
structure AbsOps (D : Type) where
  mul : D → D → Option D
  sqr : D → Option D
  add : D → D → Option D
  sub : D → D → Option D
  rsub : D → D → Option D
  dbl : D → Option D
  neg : D → Option D
  norm : D → Option D
  imul : D → Int → Option D
  un : Nat → D → Option D
  bin : Nat → D → D → Option D := fun _ _ _ => none

/-- abstract value of a statement -/
def Ins.abs {D : Type} (o : AbsOps D) (s : R → D) : Ins R → Option (R × D)
  | .copy d r => some (d, s r)
  | .mul d r => (o.mul (s d) (s r)).map (d, ·)
  | .sqr d => (o.sqr (s d)).map (d, ·)
  | .add d r => (o.add (s d) (s r)).map (d, ·)
  | .sub d r => (o.sub (s d) (s r)).map (d, ·)
  | .rsub d r => (o.rsub (s d) (s r)).map (d, ·)
  | .dbl d => (o.dbl (s d)).map (d, ·)
  | .neg d => (o.neg (s d)).map (d, ·)
  | .norm d => (o.norm (s d)).map (d, ·)
  | .imul d c => (o.imul (s d) c).map (d, ·)
  | .un i d => (o.un i (s d)).map (d, ·)
  | .bin i d r => (o.bin i (s d) (s r)).map (d, ·)

/-- abstract run -/
def absRun {D : Type} (o : AbsOps D) : List (Ins R) → (R → D) → Option (R → D)
  | [], s => some s
  | i :: is, s =>
    match i.abs o s with
    | none => none
    | some r => absRun o is (Function.update s r.1 r.2)

/-- `o` implements the operations of `f`: `Rel d a v` (the representative `a`, as lazy as `d`, denotes `v`) is
preserved by every operation the abstract operations allow; `good` are the constants allowed in `imul`. -/
structure Sound {F D : Type} (o : Ops A) (f : Ops F) (b : AbsOps D) (good : Int → Prop) (Rel : D → A → F → Prop) : Prop where
  mul : ∀ {d e r a c v w}, b.mul d e = some r → Rel d a v → Rel e c w → Rel r (o.mul a c) (f.mul v w)
  sqr : ∀ {d r a v}, b.sqr d = some r → Rel d a v → Rel r (o.sqr a) (f.sqr v)
  add : ∀ {d e r a c v w}, b.add d e = some r → Rel d a v → Rel e c w → Rel r (o.add a c) (f.add v w)
  sub : ∀ {d e r a c v w}, b.sub d e = some r → Rel d a v → Rel e c w → Rel r (o.sub a c) (f.sub v w)
  rsub : ∀ {d e r a c v w}, b.rsub d e = some r → Rel d a v → Rel e c w → Rel r (o.rsub a c) (f.rsub v w)
  dbl : ∀ {d r a v}, b.dbl d = some r → Rel d a v → Rel r (o.dbl a) (f.dbl v)
  neg : ∀ {d r a v}, b.neg d = some r → Rel d a v → Rel r (o.neg a) (f.neg v)
  norm : ∀ {d r a v}, b.norm d = some r → Rel d a v → Rel r (o.norm a) (f.norm v)
  imul : ∀ {d r a v} {c : Int}, good c → b.imul d c = some r → Rel d a v → Rel r (o.imul a c) (f.imul v c)
  un : ∀ {i d r a v}, b.un i d = some r → Rel d a v → Rel r (o.un i a) (f.un i v)
  bin : ∀ {i d e r a c v w}, b.bin i d e = some r → Rel d a v → Rel e c w → Rel r (o.bin i a c) (f.bin i v w)

/-- the constants of `imul` are allowed -/
def Ins.Good (good : Int → Prop) : Ins R → Prop
  | .imul _ c => good c
  | _ => True

theorem exec_sound {F D : Type} {o : Ops A} {f : Ops F} {b : AbsOps D} {good : Int → Prop} {Rel : D → A → F → Prop} (h : Sound o f b good Rel)
    (i : Ins R) (hg : i.Good good) {s : R → A} {v : R → F} {t : R → D} (hs : ∀ r, Rel (t r) (s r) (v r)) {q : R × D} (hq : i.abs b t = some q) :
    (i.exec o s).1 = q.1 ∧ (i.exec f v).1 = q.1 ∧ Rel q.2 (i.exec o s).2 (i.exec f v).2 := by
  cases i <;> simp only [Ins.abs, Option.map_eq_some_iff, Option.some.injEq] at hq
  case copy d r => subst hq; exact ⟨rfl, rfl, hs r⟩
  case mul d r => obtain ⟨x, hx, rfl⟩ := hq; exact ⟨rfl, rfl, h.mul hx (hs d) (hs r)⟩
  case sqr d => obtain ⟨x, hx, rfl⟩ := hq; exact ⟨rfl, rfl, h.sqr hx (hs d)⟩
  case add d r => obtain ⟨x, hx, rfl⟩ := hq; exact ⟨rfl, rfl, h.add hx (hs d) (hs r)⟩
  case sub d r => obtain ⟨x, hx, rfl⟩ := hq; exact ⟨rfl, rfl, h.sub hx (hs d) (hs r)⟩
  case rsub d r => obtain ⟨x, hx, rfl⟩ := hq; exact ⟨rfl, rfl, h.rsub hx (hs d) (hs r)⟩
  case dbl d => obtain ⟨x, hx, rfl⟩ := hq; exact ⟨rfl, rfl, h.dbl hx (hs d)⟩
  case neg d => obtain ⟨x, hx, rfl⟩ := hq; exact ⟨rfl, rfl, h.neg hx (hs d)⟩
  case norm d => obtain ⟨x, hx, rfl⟩ := hq; exact ⟨rfl, rfl, h.norm hx (hs d)⟩
  case imul d c => obtain ⟨x, hx, rfl⟩ := hq; exact ⟨rfl, rfl, h.imul hg hx (hs d)⟩
  case un i d => obtain ⟨x, hx, rfl⟩ := hq; exact ⟨rfl, rfl, h.un hx (hs d)⟩
  case bin i d r => obtain ⟨x, hx, rfl⟩ := hq; exact ⟨rfl, rfl, h.bin hx (hs d) (hs r)⟩

/-- A program the abstract run accepts computes, on representatives, what it computes in the field. -/
theorem run_sound {F D : Type} {o : Ops A} {f : Ops F} {b : AbsOps D} {good : Int → Prop} {Rel : D → A → F → Prop} (h : Sound o f b good Rel) :
    ∀ (is : List (Ins R)) (_ : ∀ i ∈ is, i.Good good) {s : R → A} {v : R → F} {t t' : R → D}, (∀ r, Rel (t r) (s r) (v r)) → absRun b is t = some t' →
      ∀ r, Rel (t' r) (run o is s r) (run f is v r)
  | [], _, s, v, t, t', hs, ht => by
    simp only [absRun, Option.some.injEq] at ht
    subst ht
    exact hs
  | i :: is, hg, s, v, t, t', hs, ht => by
    simp only [absRun] at ht
    split at ht
    · cases ht
    · rename_i q hq
      obtain ⟨e1, e2, e3⟩ := exec_sound h i (hg i (by simp)) hs hq
      refine run_sound h is (fun j hj => hg j (by simp [hj])) (t := Function.update t q.1 q.2) ?_ ht
      intro r
      rw [e1, e2]
      by_cases hr : r = q.1
      · subst hr; simp only [Function.update_self]; exact e3
      · simp only [Function.update_of_ne hr]; exact hs r

end Verif.Prog
