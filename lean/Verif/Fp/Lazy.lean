import Verif.Fp.Arith
/- Representatives with separate lower and upper limb bounds. -/
namespace Verif.Fp
open Verif.Big Spec

variable {C : Nat} {P : Params C} {p : Nat} [hp : Fact p.Prime]

theorem room_ge {k : Nat} (h : Room P k) : -(2 : Int) ^ (C - 1) ≤ -((k : Int) * (2 ^ P.b - 1)) := by
  have := room_lt h; omega

theorem zipWith_mem {α β γ : Type} {f : α → β → γ} {xs : List α} {ys : List β} {z : γ} (h : z ∈ List.zipWith f xs ys) :
    ∃ x ∈ xs, ∃ y ∈ ys, z = f x y := by
  induction xs generalizing ys with
  | nil => simp at h
  | cons x xs ih =>
    cases ys with
    | nil => simp at h
    | cons y ys =>
      rw [List.zipWith_cons_cons] at h
      rcases List.mem_cons.1 h with rfl | h
      · exact ⟨x, by simp, y, by simp, rfl⟩
      · obtain ⟨a, ha, b, hb, e⟩ := ih h
        exact ⟨a, by simp [ha], b, by simp [hb], e⟩

theorem Elem.digits {a : Fp C} {v : ZMod p} (h : Elem P p 0 1 a v) : Digits P.b a.x := by
  intro z hz
  have := h.range z hz
  push_cast at this
  omega

theorem Elem.normed {a : Fp C} {v : ZMod p} (h : Elem P p 0 1 a v) : Normed P p a := ⟨h.valid, h.digits⟩

theorem Elem.of_normed (hc : Consts P p) {a : Fp C} {v : ZMod p} (h : Normed P p a ∧ residue P p a = v) : Elem P p 0 1 a v :=
  ⟨h.1.valid, fun z hz => by have := h.1.digits z hz; push_cast; omega, h.2, (room_one hc).mono (by omega), le_rfl⟩

theorem Elem.mono {l k l' k' : Nat} {a : Fp C} {v : ZMod p} (h : Elem P p l k a v) (hl : l ≤ l') (hk : k ≤ k') (hr : Room P (max l' k')) :
    Elem P p l' k' a v := by
  refine ⟨h.valid.mono (by omega), ?_, h.res, hr, h.pos.trans hk⟩
  intro z hz
  have h1 := h.range z hz
  have hp := two_pow_pos' P.b
  have h2 : (l : Int) * (2 ^ P.b - 1) ≤ l' * (2 ^ P.b - 1) := mul_le_mul_of_nonneg_right (by exact_mod_cast hl) (by omega)
  have h3 : (k : Int) * (2 ^ P.b - 1) ≤ k' * (2 ^ P.b - 1) := mul_le_mul_of_nonneg_right (by exact_mod_cast hk) (by omega)
  omega

theorem range_within {l k : Nat} {w : Limbs C} (h : ∀ z ∈ w, -((l : Int) * (2 ^ P.b - 1)) ≤ z.toInt ∧ z.toInt ≤ (k : Int) * (2 ^ P.b - 1)) :
    LimbsWithin ((max l k : Nat) * (2 ^ P.b - 1)) w := by
  intro z hz
  have h1 := h z hz
  have hp := two_pow_pos' P.b
  have h2 : (l : Int) * (2 ^ P.b - 1) ≤ (max l k : Nat) * (2 ^ P.b - 1) := mul_le_mul_of_nonneg_right (by exact_mod_cast le_max_left l k) (by omega)
  have h3 : (k : Int) * (2 ^ P.b - 1) ≤ (max l k : Nat) * (2 ^ P.b - 1) := mul_le_mul_of_nonneg_right (by exact_mod_cast le_max_right l k) (by omega)
  omega

/-- `check` (conditional reduction) -/
theorem check_elem (h : Consts P p) {l k : Nat} {a : Fp C} (hlen : a.x.length = P.n)
    (hrange : ∀ z ∈ a.x, -((l : Int) * (2 ^ P.b - 1)) ≤ z.toInt ∧ z.toInt ≤ (k : Int) * (2 ^ P.b - 1))
    (hr : Room P (max l k)) (hk1 : 1 ≤ k) (h0 : 0 ≤ limbsVal P.b a.x) (hlt : limbsVal P.b a.x < a.xes * p) (hfit : a.xes ≤ 2 ^ (P.sh + 1)) (hx1 : 1 ≤ a.xes) :
    Elem P p l k (check P a) (residue P p a) := by
  unfold check
  split_ifs with hc
  · obtain ⟨h1, h2, _⟩ := reduce_core h hlen (range_within hrange) hr h0 hlt hfit hx1
    exact (Elem.of_normed h ⟨h1, h2⟩).mono (by omega) hk1 hr
  · exact ⟨⟨hlen, range_within hrange, h0, hlt, hx1, by omega⟩, hrange, rfl, hr, hk1⟩

theorem Elem.add (h : Consts P p) {l k l' k' : Nat} {a c : Fp C} {v w : ZMod p} (ha : Elem P p l k a v) (hc : Elem P p l' k' c w)
    (hr : Room P (max (l + l') (k + k'))) : Elem P p (l + l') (k + k') (add P a c) (v + w) := by
  have hC := h.ok.hC
  have r1 := room_lt (hr.mono (le_max_right _ _))
  have r0 := room_ge (hr.mono (le_max_left _ _))
  push_cast at r1 r0
  have hsum : ∀ x ∈ a.x, ∀ y ∈ c.x, (x + y).toInt = x.toInt + y.toInt := by
    intro x hx y hy
    have h1 := ha.range x hx; have h2 := hc.range y hy
    exact toInt_add_of _ _ (by omega) (by nlinarith) (by nlinarith)
  have hv : limbsVal P.b (Big.add a.x c.x) = limbsVal P.b a.x + limbsVal P.b c.x := by
    have := zipWith_val (b := P.b) (· + ·) 1 a.x c.x (by rw [ha.valid.len, hc.valid.len]) (fun i hi => by
      rw [hsum _ (at'_mem _ i hi) _ (at'_mem _ i (by rw [hc.valid.len, ← ha.valid.len]; exact hi))]; ring)
    rw [Big.add, this, one_mul]
  have hx1 := ha.valid.xes2; have hx2 := hc.valid.xes2; have hf := fexcess_lt P; have := ha.valid.xes1
  have key := check_elem h (a := { x := Big.add a.x c.x, xes := a.xes + c.xes }) (l := l + l') (k := k + k')
    (by simp [Big.add, ha.valid.len, hc.valid.len])
    (by
      intro z hz
      obtain ⟨x, hx, y, hy, rfl⟩ := zipWith_mem hz
      have h1 := ha.range x hx; have h2 := hc.range y hy
      rw [hsum x hx y hy]; push_cast
      constructor <;> nlinarith)
    hr (by have := ha.pos; omega)
    (by rw [hv]; have := ha.valid.nonneg; have := hc.valid.nonneg; omega)
    (by rw [hv]; push_cast; have := ha.valid.lt; have := hc.valid.lt; rw [add_mul]; omega)
    (by show a.xes + c.xes ≤ _; rw [pow_succ]; omega) (by show 1 ≤ a.xes + c.xes; omega)
  have e : residue P p { x := Big.add a.x c.x, xes := a.xes + c.xes } = v + w := by
    rw [residue_eq_iff h, add_mul, ← ha.res, ← hc.res, residue_mul_factor h, residue_mul_factor h]
    simp only [hv]; push_cast; ring
  rw [e] at key
  exact key

theorem Elem.dbl (h : Consts P p) {l k : Nat} {a : Fp C} {v : ZMod p} (ha : Elem P p l k a v) (hr : Room P (max (l + l) (k + k))) :
    Elem P p (l + l) (k + k) (dbl P a) (v + v) := by
  have e : Fp.dbl P a = Fp.add P a a := by
    unfold Fp.dbl Fp.add
    congr 2
    unfold Big.dbl Big.add
    rw [List.zipWith_self]
  rw [e]; exact ha.add h ha hr

theorem Elem.neg (h : Consts P p) (hC64 : C ≤ 64) {l k : Nat} {a : Fp C} {v : ZMod p} (ha : Elem P p l k a v) (hr : Room P (max k (l + 1))) :
    Elem P p k (l + 1) (neg P a) (-v) := by
  have hC := h.ok.hC
  have hb := two_pow_pos' P.b
  have r1 := room_lt (hr.mono (le_max_right _ _))
  have r0 := room_ge (hr.mono (le_max_left _ _))
  push_cast at r1 r0
  have hxes : a.xes ≤ 2 ^ P.sh := le_of_lt (lt_of_le_of_lt ha.valid.xes2 (fexcess_lt P))
  obtain ⟨l1, l2⟩ := logXes_spec ha.valid.xes1 (hxes.trans (sh_lt32 h hC64))
  have hsb := l2 _ hxes
  obtain ⟨f1, f2⟩ := h.md_shift hsb
  set sb := logXes a.xes with hsbd
  have erw : Big.rsub a.x (fshl P.b sb P.md) = Big.sub (fshl P.b sb P.md) a.x := by
    unfold Big.rsub Big.sub; rw [List.zipWith_comm]
  have hsum : ∀ x ∈ fshl P.b sb P.md, ∀ y ∈ a.x, (x - y).toInt = x.toInt - y.toInt := by
    intro x hx y hy
    have h1 := f2 x hx; have h2 := ha.range y hy
    exact toInt_sub_of _ _ (by omega) (by nlinarith) (by nlinarith)
  have hv : limbsVal P.b (Big.sub (fshl P.b sb P.md) a.x) = 2 ^ sb * p - limbsVal P.b a.x := by
    have := zipWith_val (b := P.b) (· - ·) (-1) (fshl P.b sb P.md) a.x (by rw [ha.valid.len, f1.len]) (fun i hi => by
      rw [hsum _ (at'_mem _ i hi) _ (at'_mem _ i (by rw [ha.valid.len, ← f1.len]; exact hi))]; ring)
    rw [Big.sub, this, f1.val]; ring
  have hpz : (0 : Int) < p := by exact_mod_cast h.ppos
  have hle : limbsVal P.b a.x < 2 ^ sb * p := lt_of_lt_of_le ha.valid.lt (mul_le_mul_of_nonneg_right (by exact_mod_cast l1) hpz.le)
  have key := check_elem h (a := { x := Big.rsub a.x (fshl P.b sb P.md), xes := 2 ^ (sb + 1) }) (l := k) (k := l + 1)
    (by simp [Big.rsub, ha.valid.len, f1.len])
    (by
      intro z hz
      rw [erw] at hz
      obtain ⟨x, hx, y, hy, rfl⟩ := zipWith_mem hz
      have h1 := f2 x hx; have h2 := ha.range y hy
      rw [hsum x hx y hy]; push_cast
      constructor <;> nlinarith)
    hr (by omega)
    (by simp only [erw, hv]; omega)
    (by simp only [erw, hv]; push_cast; rw [pow_succ]; have := ha.valid.nonneg; have : (0 : Int) < 2 ^ sb * p := mul_pos (two_pow_pos' _) hpz
        linarith)
    (by show 2 ^ (sb + 1) ≤ _; exact Nat.pow_le_pow_right (by norm_num) (by omega)) (by show 1 ≤ 2 ^ (sb + 1); exact Nat.one_le_two_pow)
  have e : residue P p { x := Big.rsub a.x (fshl P.b sb P.md), xes := 2 ^ (sb + 1) } = -v := by
    rw [residue_eq_iff h, neg_mul, ← ha.res, residue_mul_factor h]
    simp only [erw, hv]; push_cast; simp
  rw [e] at key
  exact key

theorem Elem.sub (h : Consts P p) (hC64 : C ≤ 64) {l k l' k' : Nat} {a c : Fp C} {v w : ZMod p} (ha : Elem P p l k a v) (hc : Elem P p l' k' c w)
    (hr : Room P (max (l + k') (k + l' + 1))) : Elem P p (l + k') (k + l' + 1) (sub P a c) (v - w) := by
  have n := hc.neg h hC64 (hr.mono (by omega))
  have := ha.add h n (by rw [← Nat.add_assoc]; exact hr)
  rw [← Nat.add_assoc, ← sub_eq_add_neg] at this
  exact this

theorem Elem.rsub (h : Consts P p) (hC64 : C ≤ 64) {l k l' k' : Nat} {a c : Fp C} {v w : ZMod p} (ha : Elem P p l k a v) (hc : Elem P p l' k' c w)
    (hr : Room P (max (k + l') (l + 1 + k'))) : Elem P p (k + l') (l + 1 + k') (rsub P a c) (w - v) := by
  have n := ha.neg h hC64 (hr.mono (by omega))
  have := n.add h hc hr
  rw [neg_add_eq_sub] at this
  exact this

theorem Elem.norm (h : Consts P p) {l k : Nat} {a : Fp C} {v : ZMod p} (ha : Elem P p l k a v) : Elem P p 0 1 (norm P a) v := by
  obtain ⟨n1, n2⟩ := norm_ok h ha.valid ha.room
  exact .of_normed h ⟨n1, n2.trans ha.res⟩

theorem Elem.reduce (h : Consts P p) {l k : Nat} {a : Fp C} {v : ZMod p} (ha : Elem P p l k a v) : Elem P p 0 1 (reduce P a) v := by
  obtain ⟨n1, n2, _⟩ := reduce_ok h ha.valid ha.room
  exact .of_normed h ⟨n1, n2.trans ha.res⟩

theorem Elem.one {l k : Nat} {a : Fp C} {v : ZMod p} (ha : Elem P p l k a v) (hl : l ≤ 1) (hk : k ≤ 1) : Valid P p 1 a :=
  ha.valid.mono (by omega)

theorem Elem.mul (h : FieldOk P p) {l k l' k' : Nat} {a c : Fp C} {v w : ZMod p} (ha : Elem P p l k a v) (hc : Elem P p l' k' c w)
    (h1 : l ≤ 1 ∧ k ≤ 1) (h2 : l' ≤ 1 ∧ k' ≤ 1) : Elem P p 0 1 (mul P a c) (v * w) := by
  obtain ⟨m1, m2⟩ := mul_ok' h (ha.one h1.1 h1.2) (hc.one h2.1 h2.2)
  exact .of_normed h.toConsts ⟨m1, by rw [m2, ha.res, hc.res]⟩

theorem Elem.sqr (h : FieldOk P p) {l k : Nat} {a : Fp C} {v : ZMod p} (ha : Elem P p l k a v) (h1 : l ≤ 1 ∧ k ≤ 1) :
    Elem P p 0 1 (sqr P a) (v * v) := by
  obtain ⟨m1, m2⟩ := sqr_ok' h (ha.one h1.1 h1.2)
  exact .of_normed h.toConsts ⟨m1, by rw [m2, ha.res]⟩

end Verif.Fp
