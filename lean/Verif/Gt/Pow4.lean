import Verif.Gt.Pow
import Verif.Ecp.Mul4Ok
import Verif.Tower.Top
import Verif.Fp.More
import Mathlib.Algebra.Group.TypeTags.Basic
/- `FP12::pinpow` and `FP12::pow4` on the cyclotomic subgroup. -/
namespace Verif.Gt
open Verif.Big Verif.Fp Verif.Prog Verif.Tower Verif.Ecp Spec
set_option linter.unusedVariables false
set_option linter.unusedSectionVars false

section window
variable {C : Nat} {X G : Type} [AddCommGroup G] {o : PtOps X} {Low Rel : X → G → Prop}

/-- the constant-time selection overwrites its register, whatever it held before, as long as it had the right shape -/
theorem first_fold (h : PtSound o Low Rel) {Shape : X → Prop} (hsh : ∀ {x g}, Rel x g → Shape x)
    (hcm : ∀ {x y}, Shape x → Shape y → o.cmove x y 0 = x ∧ o.cmove x y 1 = y) {W : List X} {g : Nat → G} (hW : ∀ i < 8, ∀ x, Low (W.getD i x) (g i)) (j : Nat) (hj : j < 8)
    (s : X) (hs : Shape s) (m : Nat) (hm : m ≤ 8) :
    if j < m then Low ((List.range m).foldl (fun s i => o.cmove s (W.getD i s) (teq (BitVec.ofNat 32 j) (BitVec.ofNat 32 i))) s) (g j)
    else (List.range m).foldl (fun s i => o.cmove s (W.getD i s) (teq (BitVec.ofNat 32 j) (BitVec.ofNat 32 i))) s = s := by
  induction m with
  | zero => simp
  | succ m ih =>
    rw [List.range_succ, List.foldl_append]
    simp only [List.foldl_cons, List.foldl_nil]
    have ih := ih (by omega)
    rw [teq_spec j hj m (by omega)]
    by_cases hjm : j = m
    · subst hjm
      rw [if_neg (by omega)] at ih
      rw [if_pos rfl, if_pos (by omega), ih, (hcm hs (hsh (h.low (hW j hj s)))).2]
      exact hW j hj s
    · rw [if_neg hjm]
      by_cases hlt : j < m
      · rw [if_pos hlt] at ih
        rw [if_pos (by omega), (hcm (hsh (h.low ih)) (hsh (h.low (hW m (by omega) _)))).1]
        exact ih
      · rw [if_neg hlt] at ih
        rw [if_neg (by omega), ih, (hcm hs (hsh (h.low (hW m (by omega) _)))).1]

theorem first_spec (h : PtSound o Low Rel) {Shape : X → Prop} {inf : X}
    (hcm : (∀ {x g}, Rel x g → Shape x) ∧ ∀ {x y}, Shape x → Shape y → o.cmove x y 0 = x ∧ o.cmove x y 1 = y) (hinf : Shape inf)
    {W : List X} {g : Nat → G} (hW : ∀ i < 8, ∀ x, Low (W.getD i x) (g i)) (d : Int) (ho : d % 2 = 1) (hd : |d| < 16) :
    Rel (selector o inf W (BitVec.ofInt 32 d)) (if d < 0 then -g ((d.natAbs - 1) / 2) else g ((d.natAbs - 1) / 2)) := by
  have hj : (d.natAbs - 1) / 2 < 8 := by have := abs_lt.mp hd; omega
  have hf := first_fold h hcm.1 hcm.2 hW _ hj inf hinf 8 le_rfl
  rw [if_pos hj] at hf
  unfold selector
  simp only [selIndex_spec d ho hd]
  by_cases hneg : d < 0
  · simp only [hneg, if_true]; rw [h.cmove1 (h.low hf) (h.neg hf)]; exact h.neg hf
  · simp only [hneg, if_false]; rw [h.cmove0 (h.low hf) (h.neg hf)]; exact h.low hf

/-- the loop shared by `ECP2::mul4` and `FP12::pow4`, with the final correction as a parameter -/
def win4 (o : PtOps X) (b n : Nat) (inf q0 q1 q2 q3 : X) (u0 u1 u2 u3 : Limbs C) (fin : X → Nat → X) : Option X :=
  let ct := 1 + n * b
  let T := table4 o q0 q1 q2 q3
  let t0 := norm b u0
  let t1 := norm b u1
  let t2 := norm b u2
  let t3 := norm b u3
  let pb := 1 - parity t0
  let t0 := norm b (inc b t0 pb)
  let mt := Big.or (Big.or (Big.or (Big.or (zero C n) t0) t1) t2) t3
  let nb := 1 + nbits b mt
  if ct < nb then none
  else
    match (recode4 b (signs b (nb - 1) t0) t1 t2 t3).reverse with
    | [] => none
    | d :: ds =>
      let p := selector o inf T (BitVec.ofInt 32 d)
      let pr := ds.foldl
        (fun (s : X × X) w =>
          let r := selector o s.2 T (BitVec.ofInt 32 w)
          (o.add (o.dbl s.1) r, r)) (p, T.getD 3 inf)
      some (fin pr.1 pb.toNat)

/-- `win4` before the correction holds the multiple for the odd first scalar -/
theorem win4_spec (h : PtSound o Low Rel) {b n : Nat} (ok : Ok C b) (hn : 2 ≤ n) {Shape : X → Prop} {inf : X}
    (hcm : (∀ {x g}, Rel x g → Shape x) ∧ ∀ {x y}, Shape x → Shape y → o.cmove x y 0 = x ∧ o.cmove x y 1 = y) (hinf : Shape inf)
    {q0 q1 q2 q3 : X} {g0 g1 g2 g3 : G} (h0 : Low q0 g0)
    (h1 : Rel q1 g1) (h2 : Rel q2 g2) (h3 : Rel q3 g3) {u0 u1 u2 u3 : Limbs C} {E0 E1 E2 E3 : Nat} (r0 : Rep b n (norm b u0) E0) (r1 : Rep b n (norm b u1) E1)
    (r2 : Rep b n (norm b u2) E2) (r3 : Rep b n (norm b u3) E3) (b0 : E0 + 1 < 2 ^ (b * n)) (b1 : E1 < 2 ^ (b * n)) (b2 : E2 < 2 ^ (b * n)) (b3 : E3 < 2 ^ (b * n)) (fin : X → Nat → X) :
    ∃ r, win4 o b n inf q0 q1 q2 q3 u0 u1 u2 u3 fin = some (fin r (1 - E0 % 2)) ∧ Rel r ((2 * (E0 / 2) + 1) • g0 + E1 • g1 + E2 • g2 + E3 • g3) := by
  have hb2 : b + 2 ≤ C := by have := ok.hC; omega
  have cast : ∀ {E : Nat}, E < 2 ^ (b * n) → (E : Int) < 2 ^ (b * n) := fun h => by exact_mod_cast h
  have hpar := r0.parity ok hn
  -- the odd scalar
  have hinc := (norm_inc_rep ok (by omega) r0 (by omega) (cast (by omega)) (1 - parity (norm b u0)) (by rw [hpar, abs_lt]; constructor <;> omega)).1
  set t0 := norm b (inc b (norm b u0) (1 - parity (norm b u0))) with ht0
  have hT0 : (E0 : Int) + (1 - parity (norm b u0)) = ((2 * (E0 / 2) + 1 : Nat) : Int) := by rw [hpar]; omega
  rw [hT0] at hinc
  set T0 := 2 * (E0 / 2) + 1 with hTd
  have hTl : T0 < 2 ^ (b * n) := by omega
  -- the number of bits
  have dz : Digits b (zero C n) := digits_zero b n
  have d0 := hinc.digits (by omega) (cast hTl)
  have d1 := r1.digits (by omega) (cast b1)
  have d2 := r2.digits (by omega) (cast b2)
  have d3 := r3.digits (by omega) (cast b3)
  have lz : (zero C n).length = n := by simp [Big.zero]
  obtain ⟨o1, l1, _, v1⟩ := or_digits hb2 _ _ dz d0 (by rw [lz, hinc.len])
  obtain ⟨o2, l2, w2, v2⟩ := or_digits hb2 _ _ o1 d1 (by rw [l1, lz, r1.len])
  obtain ⟨o3, l3, w3, v3⟩ := or_digits hb2 _ _ o2 d2 (by rw [l2, l1, lz, r2.len])
  obtain ⟨o4, l4, w4, v4⟩ := or_digits hb2 _ _ o3 d3 (by rw [l3, l2, l1, lz, r3.len])
  set mt := Big.or (Big.or (Big.or (Big.or (zero C n) t0) (norm b u1)) (norm b u2)) (norm b u3) with hmt
  have lm : mt.length = n := by rw [l4, l3, l2, l1, lz]
  have hmr := Digits.norm_rep ok (by intro e; rw [e] at lm; simp at lm; omega) o4
  rw [lm] at hmr
  have hmu := (Digits.bounds o4).2
  have hmn := (Digits.bounds o4).1
  rw [lm] at hmu
  obtain ⟨n1, n2, _⟩ := nbits_spec ok mt hmr hmn
  rw [hinc.val] at v1
  rw [r1.val] at v2
  rw [r2.val] at v3
  rw [r3.val] at v4
  have hN : nbits b mt ≤ b * n := by
    by_contra hc
    obtain ⟨_, n3⟩ := n2 (by omega)
    have : (2 : Int) ^ (b * n) ≤ 2 ^ (nbits b mt - 1) := pow_le_pow_right₀ (by norm_num) (by omega)
    omega
  have hpos : 0 < nbits b mt := (n2 (by omega)).1
  have hct : ¬ (1 + n * b < 1 + nbits b mt) := by rw [Nat.mul_comm n b]; omega
  have bd : ∀ {E : Nat}, (E : Int) ≤ limbsVal b mt → E < 2 ^ nbits b mt := by
    intro E hE
    have : (E : Int) < 2 ^ nbits b mt := by omega
    exact_mod_cast this
  have t0b := bd (E := T0) (by omega)
  have t1b := bd (E := E1) (by omega)
  have t2b := bd (E := E2) (by omega)
  have t3b := bd (E := E3) (by omega)
  obtain ⟨c1, c2, c3⟩ := recode4_spec ok hn g0 g1 g2 g3 (nbits b mt) t0 _ _ _ T0 E1 E2 E3 hinc r1 r2 r3 (lt_of_lt_of_le t0b (Nat.pow_le_pow_right (by norm_num) (by omega)))
    t1b.le t2b.le t3b.le (cast b1) (cast b2) (cast b3)
  have hW := table4_spec h h0 h1 h2 h3
  rw [show 2 * (T0 / 2) + 1 = T0 by omega] at c3
  set L := recode4 b (signs b (nbits b mt) t0) (norm b u1) (norm b u2) (norm b u3) with hL
  obtain ⟨d, ds, hds⟩ : ∃ d ds, L.reverse = d :: ds := by
    cases hr : L.reverse with
    | nil => exact absurd (List.reverse_eq_nil_iff.mp hr) c2
    | cons d ds => exact ⟨d, ds, rfl⟩
  have hLe : L = ds.reverse ++ [d] := by
    have := congrArg List.reverse hds
    simpa using this
  have hodd : ∀ x ∈ d :: ds, x % 2 = 1 ∧ |x| < 16 := fun x hx => c1 x (by rw [← hds] at hx; exact List.mem_reverse.mp hx)
  have hP := first_spec h hcm hinf hW d (hodd d (by simp)).1 (hodd d (by simp)).2
  have hfold : ∀ (l : List Int), (∀ x ∈ l, x % 2 = 1 ∧ |x| < 16) → ∀ (s : X × X) (g q : G), Rel s.1 g → Rel s.2 q →
      ∃ q', Rel (l.foldl (fun (s : X × X) w => (o.add (o.dbl s.1) (selector o s.2 (table4 o q0 q1 q2 q3) (BitVec.ofInt 32 w)),
        selector o s.2 (table4 o q0 q1 q2 q3) (BitVec.ofInt 32 w))) s).1 (l.foldl (fun a d => (2 : Int) • a + pick4 g0 g1 g2 g3 d) g) ∧
      Rel (l.foldl (fun (s : X × X) w => (o.add (o.dbl s.1) (selector o s.2 (table4 o q0 q1 q2 q3) (BitVec.ofInt 32 w)),
        selector o s.2 (table4 o q0 q1 q2 q3) (BitVec.ofInt 32 w))) s).2 q' := by
    intro l
    induction l with
    | nil => intro _ s g q k1 k2; exact ⟨q, k1, k2⟩
    | cons x l ih =>
      intro hx s g q k1 k2
      simp only [List.foldl_cons]
      obtain ⟨p1, p2⟩ := hx x (by simp)
      have hsel := selector_spec h hW x p1 p2 k2
      refine ih (fun y hy => hx y (by simp [hy])) _ _ _ ?_ hsel
      have := h.add (h.low (h.dbl k1)) hsel
      rw [← two_zsmul] at this
      exact h.low this
  obtain ⟨q', w1, _⟩ := hfold ds (fun x hx => hodd x (by simp [hx]))
    (selector o inf (table4 o q0 q1 q2 q3) (BitVec.ofInt 32 d), (table4 o q0 q1 q2 q3).getD 3 inf) _ _ hP (h.low (hW 3 (by norm_num) inf))
  have hv := val4_horner (pick4 g0 g1 g2 g3) ds d
  rw [← hLe, c3] at hv
  rw [show (if d < 0 then -sub4 g0 g1 g2 g3 ((d.natAbs - 1) / 2) else sub4 g0 g1 g2 g3 ((d.natAbs - 1) / 2)) = pick4 g0 g1 g2 g3 d from rfl, hv] at w1
  refine ⟨_, ?_, w1⟩
  unfold win4
  simp only
  rw [← ht0, ← hmt, if_neg hct, Nat.add_sub_cancel_left, ← hL, hds]
  simp only
  rw [hpar]
  congr 2
  omega

end window

theorem usqr_type {C : Nat} (P : Params C) (x : Fp12 C) : (Fp12.usqr P x).stype < 2 ^ 64 := by show tDENSE < 2 ^ 64; decide
theorem mul_type {C : Nat} (P : Params C) (x y : Fp12 C) : (Fp12.mul P x y).stype < 2 ^ 64 := by show tDENSE < 2 ^ 64; decide
theorem conj_type {C : Nat} (P : Params C) (x : Fp12 C) : (Fp12.conj P x).stype = x.stype := rfl

attribute [local irreducible] Fp12.mul Fp12.usqr Fp12.conj Fp12.frob Fp12.norm Fp12.reduce Fp12.inverse

variable {C : Nat} {P : Params C} {p : Nat} [hp : Fact p.Prime]

/-- twelve components of the right length and a tag that fits its word -/
def Shape12 (P : Params C) (x : Fp12 C) : Prop :=
  ((x.a.a.a.x.length = P.n ∧ x.a.a.b.x.length = P.n) ∧ (x.a.b.a.x.length = P.n ∧ x.a.b.b.x.length = P.n)) ∧
  ((x.b.a.a.x.length = P.n ∧ x.b.a.b.x.length = P.n) ∧ (x.b.b.a.x.length = P.n ∧ x.b.b.b.x.length = P.n)) ∧
  ((x.c.a.a.x.length = P.n ∧ x.c.a.b.x.length = P.n) ∧ (x.c.b.a.x.length = P.n ∧ x.c.b.b.x.length = P.n)) ∧ x.stype < 2 ^ 64

theorem Shape12.of {K : Nat} {x : Fp12 C} {v : F12 p} (h : Std12 P p K x v) (ht : x.stype < 2 ^ 64) : Shape12 P x :=
  ⟨⟨⟨h.1.1.1.1.valid.len, h.1.1.2.1.valid.len⟩, h.1.2.1.1.valid.len, h.1.2.2.1.valid.len⟩, ⟨⟨h.2.1.1.1.1.valid.len, h.2.1.1.2.1.valid.len⟩, h.2.1.2.1.1.valid.len, h.2.1.2.2.1.valid.len⟩,
    ⟨⟨h.2.2.1.1.1.valid.len, h.2.2.1.2.1.valid.len⟩, h.2.2.2.1.1.valid.len, h.2.2.2.2.1.valid.len⟩, ht⟩

theorem cmove12_ok {x y : Fp12 C} (hx : Shape12 P x) (hy : Shape12 P y) : cmove12 x y 0 = x ∧ cmove12 x y 1 = y := by
  obtain ⟨⟨⟨a1, a2⟩, a3, a4⟩, ⟨⟨a5, a6⟩, a7, a8⟩, ⟨⟨a9, a10⟩, a11, a12⟩, a13⟩ := hx
  obtain ⟨⟨⟨b1, b2⟩, b3, b4⟩, ⟨⟨b5, b6⟩, b7, b8⟩, ⟨⟨b9, b10⟩, b11, b12⟩, b13⟩ := hy
  have two : ∀ d, (d = 0 ∨ d = 1) → ∀ x y : Fp2 C, x.a.x.length = P.n → x.b.x.length = P.n → y.a.x.length = P.n → y.b.x.length = P.n → cmove2 x y d = if d = 1 then y else x := by
    intro d hd x y h1 h2 h3 h4
    unfold cmove2
    rw [cmove_ok (by rw [h1, h3]) d hd, cmove_ok (by rw [h2, h4]) d hd]
    split <;> rfl
  constructor
  · unfold cmove12 cmove4
    rw [two 0 (Or.inl rfl) x.a.a y.a.a a1 a2 b1 b2, two 0 (Or.inl rfl) x.a.b y.a.b a3 a4 b3 b4, two 0 (Or.inl rfl) x.b.a y.b.a a5 a6 b5 b6, two 0 (Or.inl rfl) x.b.b y.b.b a7 a8 b7 b8,
      two 0 (Or.inl rfl) x.c.a y.c.a a9 a10 b9 b10, two 0 (Or.inl rfl) x.c.b y.c.b a11 a12 b11 b12]
    have e : (BitVec.ofNat 64 x.stype ^^^ ((BitVec.ofNat 64 x.stype ^^^ BitVec.ofNat 64 y.stype) &&& ~~~(BitVec.ofNat 64 0 - 1))).toNat = x.stype := by
      rw [show ~~~(BitVec.ofNat 64 0 - 1) = 0#64 by decide]
      simp; omega
    simp only [show ¬ ((0 : Nat) = 1) by norm_num, if_false, e]
  · unfold cmove12 cmove4
    rw [two 1 (Or.inr rfl) x.a.a y.a.a a1 a2 b1 b2, two 1 (Or.inr rfl) x.a.b y.a.b a3 a4 b3 b4, two 1 (Or.inr rfl) x.b.a y.b.a a5 a6 b5 b6, two 1 (Or.inr rfl) x.b.b y.b.b a7 a8 b7 b8,
      two 1 (Or.inr rfl) x.c.a y.c.a a9 a10 b9 b10, two 1 (Or.inr rfl) x.c.b y.c.b a11 a12 b11 b12]
    have e : (BitVec.ofNat 64 x.stype ^^^ ((BitVec.ofNat 64 x.stype ^^^ BitVec.ofNat 64 y.stype) &&& ~~~(BitVec.ofNat 64 1 - 1))).toNat = y.stype := by
      rw [show ~~~(BitVec.ofNat 64 1 - 1) = BitVec.allOnes 64 by decide, BitVec.and_allOnes, ← BitVec.xor_assoc, BitVec.xor_self, BitVec.zero_xor]
      simp; omega
    simp only [if_true, e]

/-- an `FP12` denoting an element of the cyclotomic subgroup, written additively -/
def GtRel (P : Params C) (p K : Nat) [Fact p.Prime] (x : Fp12 C) (g : Additive (F12 p)ˣ) : Prop :=
  Std12 P p K x (g.toMul : F12 p) ∧ Cyc p g.toMul ∧ x.stype < 2 ^ 64

variable (h : TowerOk P p) (t : TowerPrime p)
include h t

theorem gt_dbl {x : Fp12 C} {g : Additive (F12 p)ˣ} (hx : GtRel P p 19184 x g) : GtRel P p 2800 (Fp12.usqr P x) (g + g) := by
  refine ⟨?_, ?_, usqr_type P x⟩
  · rw [toMul_add, ← pow_two]
    exact (usqr_u h t hx.2.1 hx.1).mono h (show 1 ≤ 2800 by norm_num)
  · rw [toMul_add]; exact hx.2.1.mul hx.2.1

omit t in
theorem gt_add {x y : Fp12 C} {g k : Additive (F12 p)ˣ} (hx : GtRel P p 19184 x g) (hy : GtRel P p 19184 y k) : GtRel P p 2800 (Fp12.mul P x y) (g + k) := by
  refine ⟨?_, ?_, mul_type P x y⟩
  · rw [toMul_add]
    exact mul_u h (hx.1.mono h (by norm_num)) (hy.1.mono h (by norm_num))
  · rw [toMul_add]; exact hx.2.1.mul hy.2.1

theorem gt_neg {x : Fp12 C} {g : Additive (F12 p)ˣ} (hx : GtRel P p 2800 x g) : GtRel P p 19184 (Fp12.conj P x) (-g) := by
  have hL : negE (2 * 2800) + 2800 ≤ 19184 := by decide +kernel
  refine ⟨?_, ?_, ?_⟩
  · rw [toMul_neg]
    exact conj_u h t hx.2.1 hx.1 hL
  · rw [toMul_neg]; exact hx.2.1.inv
  · rw [conj_type]; exact hx.2.2

omit t in
theorem gt_low {x : Fp12 C} {g : Additive (F12 p)ˣ} (hx : GtRel P p 2800 x g) : GtRel P p 19184 x g := ⟨hx.1.mono h (by norm_num), hx.2⟩
omit h t in
theorem gt_cmove {x y : Fp12 C} {g k : Additive (F12 p)ˣ} (hx : GtRel P p 19184 x g) (hy : GtRel P p 19184 y k) : cmove12 x y 0 = x ∧ cmove12 x y 1 = y :=
  cmove12_ok (Shape12.of hx.1 hx.2.2) (Shape12.of hy.1 hy.2.2)

theorem gt_sound : PtSound (ops P) (GtRel P p 2800) (GtRel P p 19184) := by
  constructor
  · intro x g hx; exact gt_low h hx
  · intro x g hx; exact gt_dbl h t hx
  · intro x y g k hx hy; exact gt_add h hx hy
  · intro x g hx; exact gt_neg h t hx
  · intro x y g k hx hy; exact (gt_cmove hx hy).1
  · intro x y g k hx hy; exact (gt_cmove hx hy).2

/-- `FP12::pow4` computes `u0^E0 u1^E1 u2^E2 u3^E3` -/
theorem pow4_ok {q0 q1 q2 q3 : Fp12 C} {u0 u1 u2 u3 : (F12 p)ˣ} (h0 : GtRel P p 2800 q0 (.ofMul u0)) (h1 : GtRel P p 19184 q1 (.ofMul u1)) (h2 : GtRel P p 19184 q2 (.ofMul u2))
    (h3 : GtRel P p 19184 q3 (.ofMul u3)) {s0 s1 s2 s3 : Limbs C} {E0 E1 E2 E3 : Nat} (r0 : Rep P.b P.n (Big.norm P.b s0) E0) (r1 : Rep P.b P.n (Big.norm P.b s1) E1)
    (r2 : Rep P.b P.n (Big.norm P.b s2) E2) (r3 : Rep P.b P.n (Big.norm P.b s3) E3) (b0 : E0 + 1 < 2 ^ (P.b * P.n)) (b1 : E1 < 2 ^ (P.b * P.n)) (b2 : E2 < 2 ^ (P.b * P.n))
    (b3 : E3 < 2 ^ (P.b * P.n)) :
    ∃ r, pow4 P q0 q1 q2 q3 s0 s1 s2 s3 = some r ∧ Canon12 P p r (u0 ^ E0 * u1 ^ E1 * u2 ^ E2 * u3 ^ E3 : (F12 p)ˣ) := by
  have hs := gt_sound h t
  have hcm : (∀ {x g}, GtRel P p 19184 x g → Shape12 P x) ∧ ∀ {x y}, Shape12 P x → Shape12 P y → (ops P).cmove x y 0 = x ∧ (ops P).cmove x y 1 = y :=
    ⟨fun hx => Shape12.of hx.1 hx.2.2, fun hx hy => cmove12_ok hx hy⟩
  have hz : Shape12 P (Fp12.zero P) := Shape12.of (std12_zero h) (by exact (by decide : tZERO < 2 ^ 64))
  obtain ⟨r, e1, e2⟩ := win4_spec hs h.arith.ok h.arith.hn (Shape := Shape12 P) (inf := Fp12.zero P) hcm hz h0 h1 h2 h3 r0 r1 r2 r3 b0 b1 b2 b3
    (fun x d => Fp12.reduce P (cmove12 x (Fp12.mul P (Fp12.conj P q0) x) d))
  refine ⟨_, e1, canon12_reduce h (K := 19184) ?_⟩
  have hc := hs.low (hs.add (hs.neg h0) e2)
  rw [show (ops P).add ((ops P).neg q0) r = Fp12.mul P (Fp12.conj P q0) r from rfl] at hc
  rcases Nat.mod_two_eq_zero_or_one E0 with hz | hz
  · rw [hz, show 1 - 0 = 1 from rfl, (cmove12_ok (hcm.1 e2) (hcm.1 hc)).2]
    convert hc.1 using 2
    rw [toMul_add, toMul_neg, toMul_add, toMul_add, toMul_add, toMul_nsmul, toMul_nsmul, toMul_nsmul, toMul_nsmul]
    simp only [toMul_ofMul]
    rw [show 2 * (E0 / 2) + 1 = E0 + 1 by omega, pow_succ']
    simp only [mul_assoc]
    rw [inv_mul_cancel_left]
  · rw [hz, show 1 - 1 = 0 from rfl, (cmove12_ok (hcm.1 e2) (hcm.1 hc)).1]
    convert e2.1 using 2
    rw [toMul_add, toMul_add, toMul_add, toMul_nsmul, toMul_nsmul, toMul_nsmul, toMul_nsmul]
    simp only [toMul_ofMul]
    rw [show 2 * (E0 / 2) + 1 = E0 by omega]

/-- the ladder of `FP12::pinpow` -/
theorem pinLoop_ok {u : (F12 p)ˣ} (hu : Cyc p u) {e : BitVec 32} {E : Nat} (he : e = BitVec.ofNat 32 E) (hE : E < 2 ^ 31) : ∀ (k : Nat) (r : Fp12 C × Fp12 C),
    Std12 P p 2800 r.1 (u ^ (E / 2 ^ k) : (F12 p)ˣ) → Std12 P p 2800 r.2 (u ^ (E / 2 ^ k + 1) : (F12 p)ˣ) → Std12 P p 2800 (pinLoop P e k r).1 (u ^ E : (F12 p)ˣ) := by
  intro k
  induction k with
  | zero => intro r h1 _; rw [pow_zero, Nat.div_one] at h1; exact h1
  | succ k ih =>
    intro r h1 h2
    have c : ∀ n : Nat, Cyc p (u ^ n) := fun n => by rw [← zpow_natCast]; exact hu.zpow n
    have bit : (e.sshiftRight k &&& 1) = 0 ↔ E / 2 ^ k % 2 = 0 := by
      have hn : e.toNat = E := by rw [he, BitVec.toNat_ofNat]; exact Nat.mod_eq_of_lt (by omega)
      have hm : e.msb = false := by rw [BitVec.msb_eq_false_iff_two_mul_lt, hn]; omega
      rw [BitVec.sshiftRight_eq_of_msb_false hm]
      constructor
      · intro hz
        have := congrArg BitVec.toNat hz
        simpa [BitVec.toNat_and, hn, Nat.shiftRight_eq_div_pow, Nat.and_one_is_mod] using this
      · intro hz
        apply BitVec.eq_of_toNat_eq
        simpa [BitVec.toNat_and, hn, Nat.shiftRight_eq_div_pow, Nat.and_one_is_mod] using hz
    have s1 : E / 2 ^ (k + 1) = E / 2 ^ k / 2 := by rw [pow_succ, Nat.div_div_eq_div_mul]
    rw [s1] at h1 h2
    generalize hm : E / 2 ^ k = m at *
    unfold pinLoop
    by_cases hb : (e.sshiftRight k &&& 1) = 0
    · rw [if_pos hb]
      have hb := bit.1 hb
      have a1 := usqr_u h t (c _) (h1.mono h (show 2800 ≤ 19184 by norm_num))
      have a2 := mul_u h (h2.mono h (show 2800 ≤ 150000 by norm_num)) (h1.mono h (show 2800 ≤ 32767 by norm_num))
      rw [← pow_mul, show m / 2 * 2 = m by omega] at a1
      rw [← pow_add, show m / 2 + 1 + m / 2 = m + 1 by omega] at a2
      exact ih _ (a1.mono h (by norm_num)) a2
    · rw [if_neg hb]
      have hb : m % 2 = 1 := by have := mt bit.2 hb; omega
      have a1 := usqr_u h t (c _) (h2.mono h (show 2800 ≤ 19184 by norm_num))
      have a2 := mul_u h (h1.mono h (show 2800 ≤ 150000 by norm_num)) (h2.mono h (show 2800 ≤ 32767 by norm_num))
      rw [← pow_mul, show (m / 2 + 1) * 2 = m + 1 by omega] at a1
      rw [← pow_add, show m / 2 + (m / 2 + 1) = m by omega] at a2
      exact ih _ a2 (a1.mono h (by norm_num))

/-- `FP12::pinpow` -/
theorem pinpow_ok {x : Fp12 C} {u : (F12 p)ˣ} (hu : Cyc p u) (hx : Std12 P p 2800 x u) {E bts : Nat} (hE : E < 2 ^ 31) (hb : E < 2 ^ bts) :
    Std12 P p 2800 (pinpow P x (BitVec.ofNat 32 E) bts) (u ^ E : (F12 p)ˣ) := by
  have one : Std12 P p 2800 (Fp12.newInt P 1) (1 : F12 p) := ⟨(std4_int1 h).mono h (by norm_num), zero4_std h (by norm_num), zero4_std h (by norm_num)⟩
  refine pinLoop_ok h t hu rfl hE bts _ ?_ ?_
  · simpa [Nat.div_eq_of_lt hb] using one
  · simpa [Nat.div_eq_of_lt hb] using hx

end Verif.Gt
