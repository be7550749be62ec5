import Verif.Gt.Mul2
import Verif.Tower.Field4
import Mathlib.Tactic.Linarith
/-
Counters under repeated negation.

`FP12::pow` conjugates its base twice for every digit -1, and the excess counters of the base grow until `FEXCESS` resets
them.  The counters alone do not show that the base may then be the second factor of `FP2::mul`; the stored integers do:
a negation leaves at most half of what the new counter allows.
-/
namespace Verif.Tower
open Verif.Big Verif.Fp Verif.Prog Spec
set_option linter.unusedVariables false

variable {C : Nat} {P : Params C} {p : Nat}

/-- The stored integer is at most half of `N p`, up to `t p`, where `N` is a sum of at most `j` powers of two and at most the counter. -/
def Slk (P : Params C) (p j t : Nat) (a : Fp C) : Prop :=
  ∃ Ms : List Nat, Ms.length ≤ j ∧ (∀ m ∈ Ms, ∃ k, m = 2 ^ k) ∧ Ms.sum ≤ a.xes ∧ 2 * limbsVal P.b a.x ≤ ((Ms.sum + 2 * t : Nat) : Int) * p

theorem Slk.mono {j t j' t' : Nat} {a : Fp C} (h : Slk P p j t a) (hj : j ≤ j') (ht : t ≤ t') : Slk P p j' t' a := by
  obtain ⟨Ms, h1, h2, h3, h4⟩ := h
  refine ⟨Ms, h1.trans hj, h2, h3, h4.trans ?_⟩
  exact mul_le_mul_of_nonneg_right (by exact_mod_cast (by omega)) (by positivity)

theorem Slk.of_valid {k t : Nat} {a : Fp C} (h : Valid P p k a) (ht : a.xes ≤ t) : Slk P p 0 t a := by
  refine ⟨[], le_rfl, by simp, by simp, ?_⟩
  have h1 := h.lt
  have h2 : (a.xes : Int) * p ≤ t * p := mul_le_mul_of_nonneg_right (by exact_mod_cast ht) (by positivity)
  simp only [List.sum_nil, Nat.zero_add]
  push_cast
  linarith

theorem sum_two {s : Nat} (hs : 2 ≤ s) {Ms : List Nat} (hl : Ms.length ≤ 2) (hm : ∀ m ∈ Ms, ∃ k, m = 2 ^ k) (hlt : Ms.sum < 2 ^ s) : Ms.sum ≤ 3 * 2 ^ (s - 2) := by
  obtain ⟨u, rfl⟩ : ∃ u, s = u + 2 := ⟨s - 2, by omega⟩
  have h4 : 2 ^ (u + 2) = 4 * 2 ^ u := by rw [pow_add]; ring
  rw [Nat.add_sub_cancel]
  have key : ∀ k, 2 ^ k < 2 ^ (u + 2) → 2 ^ k = 2 * 2 ^ u ∨ 2 ^ k ≤ 2 ^ u := by
    intro k hk
    have : k < u + 2 := (Nat.pow_lt_pow_iff_right (by norm_num)).1 hk
    rcases Nat.lt_or_ge k (u + 1) with h | h
    · exact Or.inr (Nat.pow_le_pow_right (by norm_num) (by omega))
    · left
      have : k = u + 1 := by omega
      rw [this, pow_succ]; ring
  match Ms, hl, hm, hlt with
  | [], _, _, _ => simp
  | [a], _, hm, hlt =>
    obtain ⟨k, rfl⟩ := hm a (by simp)
    simp only [List.sum_cons, List.sum_nil, Nat.add_zero] at hlt ⊢
    have h1 := key k hlt
    omega
  | [a, b], _, hm, hlt =>
    obtain ⟨k, rfl⟩ := hm a (by simp)
    obtain ⟨i, rfl⟩ := hm b (by simp)
    simp only [List.sum_cons, List.sum_nil, Nat.add_zero] at hlt ⊢
    have p1 : 0 < 2 ^ k := Nat.two_pow_pos k
    have p2 : 0 < 2 ^ i := Nat.two_pow_pos i
    have h1 := key k (by omega)
    have h2 := key i (by omega)
    omega

/-- the bound `FP2::mul` needs -/
theorem Slk.sum_lt (h : Consts P p) {j i t u k k' : Nat} {a c : Fp C} (ha : Slk P p j t a) (hc : Slk P p i u c) (va : Valid P p k a) (vc : Valid P p k' c)
    (hj : j ≤ 2) (hi : i ≤ 2) (hs : t + u < 2 ^ (P.sh - 2)) : limbsVal P.b a.x + limbsVal P.b c.x < 2 ^ (P.b * P.n) := by
  obtain ⟨Ms, h1, h2, h3, h4⟩ := ha
  obtain ⟨Ns, g1, g2, g3, g4⟩ := hc
  have hf := fexcess_lt P
  have s5 := h.sh5
  have b1 := sum_two (s := P.sh) (by omega) (h1.trans hj) h2 (by have := va.xes2; omega)
  have b2 := sum_two (s := P.sh) (by omega) (g1.trans hi) g2 (by have := vc.xes2; omega)
  have e : 2 ^ P.sh = 4 * 2 ^ (P.sh - 2) := by
    rw [show (4 : Nat) = 2 ^ 2 by norm_num, ← pow_add]; congr 1; omega
  have hle : (Ms.sum + 2 * t) + (Ns.sum + 2 * u) ≤ 2 * 2 ^ P.sh := by omega
  have hle' : (((Ms.sum + 2 * t : Nat) : Int) + ((Ns.sum + 2 * u : Nat) : Int)) * p ≤ (2 * 2 ^ P.sh) * p :=
    mul_le_mul_of_nonneg_right (by exact_mod_cast hle) (by positivity)
  have := h.p_sh
  have q : (((Ms.sum + 2 * t : Nat) : Int) + ((Ns.sum + 2 * u : Nat) : Int)) * p = ((Ms.sum + 2 * t : Nat) : Int) * p + ((Ns.sum + 2 * u : Nat) : Int) * p := add_mul _ _ _
  linarith

variable {l k l' k' : Nat} {a c : Fp C} {v w : ZMod p}

attribute [local irreducible] logXes Big.fshl Fp.reduce

theorem check_cases (a : Fp C) : check P a = a ∨ (check P a).xes = 1 := by
  unfold check
  split
  · exact Or.inr (reduce_xes _)
  · exact Or.inl rfl

theorem add_cases (h : Consts P p) (ha : Elem P p l k a v) (hc : Elem P p l' k' c w) (hr : Room P (max (l + l') (k + k'))) :
    ((Fp.add P a c).xes = a.xes + c.xes ∧ limbsVal P.b (Fp.add P a c).x = limbsVal P.b a.x + limbsVal P.b c.x) ∨ (Fp.add P a c).xes = 1 := by
  have hC := h.ok.hC
  have r1 := room_lt (hr.mono (le_max_right _ _))
  have r0 := room_ge (hr.mono (le_max_left _ _))
  push_cast at r1 r0
  have hsum : ∀ x ∈ a.x, ∀ y ∈ c.x, (x + y).toInt = x.toInt + y.toInt := by
    intro x hx y hy
    have h1 := ha.range x hx; have h2 := hc.range y hy
    exact toInt_add_of _ _ (by omega) (by nlinarith) (by nlinarith)
  have hv : limbsVal P.b (Big.add a.x c.x) = limbsVal P.b a.x + limbsVal P.b c.x := by
    have := zipWith_val (b := P.b) (· + ·) 1 a.x c.x (by rw [ha.valid.len, hc.valid.len]) (fun i hi => by
      rw [hsum _ (at'_mem _ i hi) _ (at'_mem _ i (by rw [hc.valid.len, ← ha.valid.len]; exact hi))]; ring)
    rw [Big.add, this, one_mul]
  have e : Fp.add P a c = check P { x := Big.add a.x c.x, xes := a.xes + c.xes } := rfl
  rw [e]
  rcases check_cases (P := P) { x := Big.add a.x c.x, xes := a.xes + c.xes } with q | q
  · rw [q]; exact Or.inl ⟨rfl, hv⟩
  · exact Or.inr q

theorem neg_cases (h : Consts P p) (hC64 : C ≤ 64) [Fact p.Prime] (ha : Elem P p l k a v) (hr : Room P (max k (l + 1))) :
    (∃ sb, (Fp.neg P a).xes = 2 ^ (sb + 1) ∧ limbsVal P.b (Fp.neg P a).x = 2 ^ sb * p - limbsVal P.b a.x ∧ (a.xes = 1 → sb = 0)) ∨ (Fp.neg P a).xes = 1 := by
  have hC := h.ok.hC
  have hb := two_pow_pos' P.b
  have r1 := room_lt (hr.mono (le_max_right _ _))
  have r0 := room_ge (hr.mono (le_max_left _ _))
  push_cast at r1 r0
  have hxes : a.xes ≤ 2 ^ P.sh := le_of_lt (lt_of_le_of_lt ha.valid.xes2 (fexcess_lt P))
  obtain ⟨l1, l2⟩ := logXes_spec ha.valid.xes1 (hxes.trans (sh_lt32 h hC64))
  obtain ⟨f1, f2⟩ := h.md_shift (l2 _ hxes)
  have e : Fp.neg P a = check P { x := Big.rsub a.x (fshl P.b (logXes a.xes) P.md), xes := 2 ^ (logXes a.xes + 1) } := rfl
  rw [e]
  have l3 : a.xes = 1 → logXes a.xes = 0 := fun q => Nat.le_zero.1 (l2 0 (by rw [q, pow_zero]))
  clear e l1 l2 hxes
  generalize logXes a.xes = sb at *
  have erw : Big.rsub a.x (fshl P.b sb P.md) = Big.sub (fshl P.b sb P.md) a.x := by
    unfold Big.rsub Big.sub; rw [List.zipWith_comm]
  have hsum : ∀ x ∈ fshl P.b sb P.md, ∀ y ∈ a.x, (x - y).toInt = x.toInt - y.toInt := by
    intro x hx y hy
    have h1 := f2 x hx; have h2 := ha.range y hy
    exact toInt_sub_of _ _ (by omega) (by nlinarith) (by nlinarith)
  have hv : limbsVal P.b (Big.sub (fshl P.b sb P.md) a.x) = 2 ^ sb * p - limbsVal P.b a.x := by
    have := zipWith_val (b := P.b) (· - ·) (-1) (fshl P.b sb P.md) a.x (by rw [ha.valid.len, f1.len]) (fun i hi => by
      rw [hsum _ (at'_mem _ i hi) _ (at'_mem _ i (by rw [ha.valid.len, ← f1.len]; exact hi))]; ring)
    rw [Big.sub, this, f1.val]; ring
  rcases check_cases (P := P) { x := Big.rsub a.x (fshl P.b sb P.md), xes := 2 ^ (sb + 1) } with q | q
  · rw [q, erw]; exact Or.inl ⟨sb, rfl, hv, l3⟩
  · exact Or.inr q

theorem Slk.one {j t : Nat} (ht : 1 ≤ t) {k : Nat} {a : Fp C} (va : Valid P p k a) (h1 : a.xes = 1) : Slk P p j t a :=
  (Slk.of_valid va (t := t) (by omega)).mono (by omega) le_rfl

theorem Slk.add (h : Consts P p) {j t i u : Nat} [Fact p.Prime] (ha : Elem P p l k a v) (hc : Elem P p l' k' c w) (sa : Slk P p j t a) (sc : Slk P p i u c)
    (ht : 1 ≤ t) (hr : Room P (max (l + l') (k + k'))) : Slk P p (j + i) (t + u) (Fp.add P a c) := by
  rcases add_cases h ha hc hr with ⟨e1, e2⟩ | e1
  · obtain ⟨Ms, h1, h2, h3, h4⟩ := sa
    obtain ⟨Ns, g1, g2, g3, g4⟩ := sc
    refine ⟨Ms ++ Ns, by rw [List.length_append]; omega, ?_, by rw [List.sum_append, e1]; omega, ?_⟩
    · intro m hm
      rcases List.mem_append.1 hm with q | q
      · exact h2 m q
      · exact g2 m q
    · rw [e2, List.sum_append]
      have : ((Ms.sum + Ns.sum + 2 * (t + u) : Nat) : Int) * p = ((Ms.sum + 2 * t : Nat) : Int) * p + ((Ns.sum + 2 * u : Nat) : Int) * p := by
        push_cast; ring
      linarith
  · exact Slk.one (by omega) (ha.add h hc hr).valid e1

theorem Slk.norm (h : Consts P p) {j t : Nat} (ha : Elem P p l k a v) (sa : Slk P p j t a) : Slk P p j t (Fp.norm P a) := by
  obtain ⟨_, h2, h3⟩ := norm_normed h ha.valid ha.room
  obtain ⟨Ms, g1, g2, g3, g4⟩ := sa
  exact ⟨Ms, g1, g2, by rw [h3]; exact g3, by rw [h2]; exact g4⟩

/-- one component of `FP2::neg`: `-(a + c) + c` -/
theorem Slk.negAdd (h : Consts P p) (hC64 : C ≤ 64) [Fact p.Prime] {t : Nat} {m : Fp C} {v w : ZMod p} {A : Int} (hA : 0 ≤ A)
    (hm : Elem P p l k m v) (hc : Elem P p l' k' c w) (sc : Slk P p 1 t c)
    (hmc : limbsVal P.b m.x = A + limbsVal P.b c.x ∨ m.xes = 1) (hr : Room P (max k (l + 1))) (hr2 : Room P (max (k + l') (l + 1 + k'))) :
    Slk P p 1 (t + 1) (Fp.add P (Fp.neg P m) c) := by
  have hn := hm.neg h hC64 hr
  rcases add_cases h hn hc hr2 with ⟨e1, e2⟩ | e1
  · have rest : limbsVal P.b (Fp.neg P m).x ≤ p → Slk P p 1 (t + 1) (Fp.add P (Fp.neg P m) c) := by
      intro hle
      obtain ⟨Ns, g1, g2, g3, g4⟩ := sc
      refine ⟨Ns, g1, g2, by omega, ?_⟩
      rw [e2]
      have : ((Ns.sum + 2 * (t + 1) : Nat) : Int) * p = ((Ns.sum + 2 * t : Nat) : Int) * p + 2 * p := by push_cast; ring
      linarith
    rcases neg_cases h hC64 hm hr with ⟨sb, n1, n2, n3⟩ | n1
    · rcases hmc with q | q
      · refine ⟨[2 ^ (sb + 1)], by simp, fun m hm => ⟨sb + 1, List.mem_singleton.1 hm⟩, ?_, ?_⟩
        · rw [List.sum_singleton, e1, n1]; exact Nat.le_add_right _ _
        · rw [e2, n2, q, List.sum_singleton]
          push_cast
          rw [pow_succ]
          have : (0 : Int) ≤ (2 * (t + 1)) * p := by positivity
          linarith
      · apply rest
        have := hm.valid.nonneg
        rw [n2, n3 q, pow_zero, one_mul]
        linarith
    · apply rest
      have := hn.valid.lt
      rw [n1] at this
      simp only [Nat.cast_one, one_mul] at this
      omega
  · exact Slk.one (by omega) (hn.add h hc hr2).valid e1

end Verif.Tower
