import Verif.Tower.Ex
import Verif.Spec.Tower
/- `FP2::mul`: the double-length arithmetic and the two Montgomery reductions. -/
namespace Verif.Tower
open Verif.Big Verif.Fp Spec

variable {C : Nat} {P : Params C} {p : Nat}

theorem Elem.to' {l k : Nat} {a : Fp C} {v w : ZMod p} (h : Elem P p l k a v) (e : v = w) : Elem P p l k a w := e ▸ h

/-- `FP::modulo` for Montgomery moduli on a number below `j·p·R`, `j ≤ 2`: a representative below `(j+1)·p` -/
theorem modulo_wide (h : MontConsts P p) [Fact p.Prime] {j : Nat} (hj : j ≤ 2) {d : Limbs C} (hl : d.length = 2 * P.n) (hd : Digits P.b d)
    (hlt : limbsVal P.b d < j * (p * 2 ^ (P.b * P.n))) :
    Elem P p 0 1 { x := modulo P d, xes := j + 1 } ((limbsVal P.b d : ZMod p) * (P.factor : ZMod p)⁻¹ * (P.factor : ZMod p)⁻¹) := by
  have hfac : P.factor = 2 ^ (P.b * P.n) := by simp [Params.factor, Params.plain, h.type]
  have hm : modulo P d = monty P.b P.md P.mc d := by simp [modulo, h.type]
  rw [hm]
  obtain ⟨m1, m2, v, t, v0, v1, e, m3⟩ := monty_spec h.ok h.hn h.mddig hd P.mc h.mc h.mdlen hl h.fits
  rw [h.mdval] at e
  have hpz : (0 : Int) < p := by exact_mod_cast h.ppos
  have hR := two_pow_pos' (P.b * P.n)
  have hd0 := hd.bounds.1
  have hvp : 0 ≤ v * p := mul_nonneg v0 hpz.le
  have ht0 : 0 ≤ t := by
    by_contra hc
    have : (2 : Int) ^ (P.b * P.n) * t < 0 := mul_neg_of_pos_of_neg hR (by omega)
    linarith
  have ht2 : t < (j + 1) * p := by
    have h2 : v * p ≤ 2 ^ (P.b * P.n) * p := mul_le_mul_of_nonneg_right v1.le hpz.le
    have h3 : (2 : Int) ^ (P.b * P.n) * t < 2 ^ (P.b * P.n) * ((j + 1) * p) := by rw [e]; linarith
    exact lt_of_mul_lt_mul_left h3 hR.le
  have h5 : 2 ^ 5 ≤ 2 ^ P.sh := Nat.pow_le_pow_right (by norm_num) h.sh5
  have h3p := h.xes_p (x := j + 1) (by omega)
  push_cast at h3p
  rw [Int.emod_eq_of_lt ht0 (by linarith)] at m3
  refine .of_normed h.toConsts ⟨⟨⟨m1, Digits.lim m2 1 le_rfl, m2.bounds.1, ?_, ?_, ?_⟩, m2⟩, ?_⟩
  · dsimp only; rw [m3]; push_cast; exact ht2
  · dsimp only; omega
  · dsimp only; unfold Params.fexcess; omega
  · rw [residue_eq_iff h.toConsts]
    have hf := factor_ne h.toConsts
    rw [mul_assoc _ _ (P.factor : ZMod p), inv_mul_cancel₀ hf, mul_one]
    have e' := congrArg (fun z : Int => (z : ZMod p)) e
    dsimp only
    rw [m3]
    push_cast at e'
    rw [ZMod.natCast_self, mul_zero, add_zero] at e'
    have hf2 : (P.factor : ZMod p) = 2 ^ (P.b * P.n) := by rw [hfac]; push_cast; rfl
    rw [← e', ← hf2, mul_comm, ← mul_assoc, inv_mul_cancel₀ hf, one_mul]

theorem zip_range (op : BitVec C → BitVec C → BitVec C) {a1 a2 b1 b2 U : Int} (xs ys : Limbs C)
    (hx : ∀ z ∈ xs, a1 ≤ z.toInt ∧ z.toInt ≤ a2) (hy : ∀ z ∈ ys, b1 ≤ z.toInt ∧ z.toInt ≤ b2)
    (hop : ∀ x y, a1 ≤ x.toInt → x.toInt ≤ a2 → b1 ≤ y.toInt → y.toInt ≤ b2 → -U ≤ (op x y).toInt ∧ (op x y).toInt ≤ U) :
    LimbsWithin U (List.zipWith op xs ys) := by
  induction xs generalizing ys with
  | nil => intro z hz; simp at hz
  | cons x xs ih =>
    cases ys with
    | nil => intro z hz; simp at hz
    | cons y ys =>
      intro z hz
      rw [List.zipWith_cons_cons, List.mem_cons] at hz
      rcases hz with rfl | hz
      · exact hop x y (hx x (by simp)).1 (hx x (by simp)).2 (hy y (by simp)).1 (hy y (by simp)).2
      · exact ih ys (fun z hz => hx z (by simp [hz])) (fun z hz => hy z (by simp [hz])) z hz

theorem ucopy_spec (h : Consts P p) : (ucopy P.md).length = 2 * P.n ∧ Digits P.b (ucopy P.md) ∧ limbsVal P.b (ucopy P.md) = p * 2 ^ (P.b * P.n) := by
  unfold ucopy
  rw [h.mdlen]
  refine ⟨by simp [Big.zero, h.mdlen]; omega, ?_, ?_⟩
  · intro z hz
    rcases List.mem_append.1 hz with hz | hz
    · have : z = 0 := by
        unfold Big.zero at hz
        exact (List.mem_replicate.1 hz).2
      subst this
      simp
    · exact h.mddig z hz
  · rw [val_append, h.mdval, (zero_rep P.b P.n).val, (zero_rep (C := C) P.b P.n).len]
    ring

/-- the normalised sum of the components -/
theorem sum_digits (h : Consts P p) [Fact p.Prime] {x y : Fp C} (hx : Valid P p 1 x) (hy : Valid P p 1 y) (h5 : ((x.xes + y.xes : Nat) : Int) * p < 2 ^ (P.b * P.n)) :
    (Big.norm P.b (Big.add x.x y.x)).length = P.n ∧ Digits P.b (Big.norm P.b (Big.add x.x y.x)) ∧
      limbsVal P.b (Big.norm P.b (Big.add x.x y.x)) = limbsVal P.b x.x + limbsVal P.b y.x := by
  have hC := h.ok.hC
  have hp2 : (2 : Int) * (2 ^ P.b - 1) ≤ 2 ^ (C - 2) := by
    have : (2 : Int) ^ (P.b + 1) ≤ 2 ^ (C - 2) := pow_le_pow_right₀ (by norm_num) (by omega)
    rw [pow_succ] at this; linarith
  have hp1 : (2 : Int) ^ (C - 2) < 2 ^ (C - 1) := pow_lt_pow_right₀ (by norm_num) (by omega)
  have hl : x.x.length = y.x.length := by rw [hx.len, hy.len]
  have w := add_within (by omega) x.x y.x _ _ hx.within hy.within (by linarith)
  have e := add_val (b := P.b) (by omega) x.x y.x hl _ _ hx.within hy.within (by linarith)
  have hlen : (Big.add x.x y.x).length = P.n := by simp [Big.add, hx.len, hy.len]
  have hn := h.hn
  have r := norm_rep h.ok (Big.add x.x y.x) (by intro e0; rw [e0] at hlen; simp at hlen; omega)
    (fun z hz => by have := w z hz; constructor <;> linarith)
  rw [hlen, e] at r
  have h1 := hx.lt; have h2 := hy.lt; have h3 := hx.nonneg; have h4 := hy.nonneg
  push_cast at h5
  exact ⟨r.len, r.digits (by linarith) (by linarith), r.val⟩

set_option maxHeartbeats 1000000 in
theorem mul2_core (h : MontConsts P p) [Fact p.Prime] {x y : Fp2 C} (hxa : Valid P p 1 x.a) (hxb : Valid P p 1 x.b) (hya : Valid P p 1 y.a)
    (hyb : Valid P p 1 y.b) (hX : (((x.a.xes + x.b.xes) * (y.a.xes + y.b.xes) : Nat) : Int) * p < 2 ^ (P.b * P.n)) :
    Elem P p 0 1 { x := modulo P (Big.norm P.b (Big.add (Big.mul P.b x.a.x y.a.x) (Big.rsub (Big.mul P.b x.b.x y.b.x) (ucopy P.md)))), xes := 3 }
        (residue P p x.a * residue P p y.a - residue P p x.b * residue P p y.b) ∧
      Elem P p 0 1 { x := modulo P (Big.norm P.b (Big.sub (Big.mul P.b (Big.norm P.b (Big.add x.a.x x.b.x)) (Big.norm P.b (Big.add y.a.x y.b.x)))
        (Big.add (Big.mul P.b x.a.x y.a.x) (Big.mul P.b x.b.x y.b.x)))), xes := 2 }
        (residue P p x.a * residue P p y.b + residue P p x.b * residue P p y.a) := by
  have hC := h.ok.hC
  have hn := h.hn
  have hpz : (0 : Int) < p := by exact_mod_cast h.ppos
  have hR := two_pow_pos' (P.b * P.n)
  have hp2 : (2 : Int) * (2 ^ P.b - 1) ≤ 2 ^ (C - 2) := by
    have : (2 : Int) ^ (P.b + 1) ≤ 2 ^ (C - 2) := pow_le_pow_right₀ (by norm_num) (by omega)
    rw [pow_succ] at this; linarith
  have hp1 : (2 : Int) * 2 ^ (C - 2) = 2 ^ (C - 1) := by rw [← pow_succ']; congr 1; omega
  have hB : (2 : Int) ^ 9 ≤ 2 ^ P.b := pow_le_pow_right₀ (by norm_num) h.ok.hb
  have hXp : ∀ {m : Nat}, m ≤ (x.a.xes + x.b.xes) * (y.a.xes + y.b.xes) → (m : Int) * p < 2 ^ (P.b * P.n) := fun hm =>
    lt_of_le_of_lt (mul_le_mul_of_nonneg_right (by exact_mod_cast hm) hpz.le) hX
  have x1 := hxa.xes1; have x2 := hxb.xes1; have y1 := hya.xes1; have y2 := hyb.xes1
  have ps := h.p_sh
  -- the three products
  obtain ⟨a1, a2, a3⟩ := mul_signed h.ok hxa.within hya.within hxa.nonneg hya.nonneg (by rw [hxa.len, hya.len]) (by rw [hxa.len]; omega)
    (by rw [hxa.len]; exact h.fits)
  obtain ⟨b1, b2, b3⟩ := mul_signed h.ok hxb.within hyb.within hxb.nonneg hyb.nonneg (by rw [hxb.len, hyb.len]) (by rw [hxb.len]; omega)
    (by rw [hxb.len]; exact h.fits)
  have hsx := hXp (m := x.a.xes + x.b.xes) (Nat.le_mul_of_pos_right _ (by omega))
  have hsy := hXp (m := y.a.xes + y.b.xes) (Nat.le_mul_of_pos_left _ (by omega))
  obtain ⟨c1, c2, c3⟩ := sum_digits h.toConsts hxa hxb hsx
  obtain ⟨d1, d2, d3⟩ := sum_digits h.toConsts hya hyb hsy
  obtain ⟨e1, e2, e3⟩ := mul_spec h.ok c2 d2 (by rw [c1, d1]) (by rw [c1]; omega) (by rw [c1]; exact h.fits)
  rw [hxa.len] at a1
  rw [hxb.len] at b1
  rw [c1] at e1
  rw [c3, d3] at e3
  obtain ⟨u1, u2, u3⟩ := ucopy_spec h.toConsts
  have na := hxa.nonneg; have nb := hxb.nonneg; have nc := hya.nonneg; have nd := hyb.nonneg
  have la := hxa.lt; have lb := hxb.lt; have lc := hya.lt; have ld := hyb.lt
  -- sizes
  have hF : ∀ {m : Nat}, m ≤ (x.a.xes + x.b.xes) * (y.a.xes + y.b.xes) → (m : Int) * (p * p) < p * 2 ^ (P.b * P.n) := by
    intro m hm
    have h2 := hXp hm
    calc (m : Int) * (p * p) = p * (m * p) := by ring
      _ < p * 2 ^ (P.b * P.n) := mul_lt_mul_of_pos_left h2 hpz
  have hA : limbsVal P.b x.a.x * limbsVal P.b y.a.x < p * 2 ^ (P.b * P.n) := by
    refine lt_of_le_of_lt ?_ (hF (m := x.a.xes * y.a.xes) (Nat.mul_le_mul (by omega) (by omega)))
    calc _ ≤ (x.a.xes * p : Int) * (y.a.xes * p) := mul_le_mul la.le lc.le nc (by positivity)
      _ = _ := by push_cast; ring
  have hBb : limbsVal P.b x.b.x * limbsVal P.b y.b.x < p * 2 ^ (P.b * P.n) := by
    refine lt_of_le_of_lt ?_ (hF (m := x.b.xes * y.b.xes) (Nat.mul_le_mul (by omega) (by omega)))
    calc _ ≤ (x.b.xes * p : Int) * (y.b.xes * p) := mul_le_mul lb.le ld.le nd (by positivity)
      _ = _ := by push_cast; ring
  have hE : (limbsVal P.b x.a.x + limbsVal P.b x.b.x) * (limbsVal P.b y.a.x + limbsVal P.b y.b.x) < p * 2 ^ (P.b * P.n) := by
    refine lt_of_le_of_lt ?_ (hF (m := (x.a.xes + x.b.xes) * (y.a.xes + y.b.xes)) le_rfl)
    calc _ ≤ (x.a.xes * p + x.b.xes * p : Int) * (y.a.xes * p + y.b.xes * p) := mul_le_mul (by linarith) (by linarith) (by linarith) (by positivity)
      _ = _ := by push_cast; ring
  have h5 : 2 ^ 5 ≤ 2 ^ P.sh := Nat.pow_le_pow_right (by norm_num) h.sh5
  have h2p := h.xes_p (x := 2) (by omega)
  push_cast at h2p
  have hRR : (2 : Int) ^ (P.b * (2 * P.n)) = 2 ^ (P.b * P.n) * 2 ^ (P.b * P.n) := by rw [← pow_add]; congr 1; ring
  have hbig : (2 : Int) * (p * 2 ^ (P.b * P.n)) < 2 ^ (P.b * (2 * P.n)) := by
    rw [hRR, ← mul_assoc]
    exact mul_lt_mul_of_pos_right h2p hR
  have hf : (P.factor : ZMod p) = 2 ^ (P.b * P.n) := by simp [Params.factor, Params.plain, h.type]
  have hne := factor_ne h.toConsts
  constructor
  · -- real part: a + (pR - b)
    have wb : LimbsWithin (2 ^ P.b - 1) (Big.rsub (Big.mul P.b x.b.x y.b.x) (ucopy P.md)) := by
      refine zip_range _ (a1 := 0) (a2 := 2 ^ P.b - 1) (b1 := 0) (b2 := 2 ^ P.b - 1) _ _ (fun z hz => by have := b2 z hz; omega)
        (fun z hz => by have := u2 z hz; omega) ?_
      intro s t s1 s2 t1 t2
      rw [toInt_sub_of _ _ (by omega) (by omega) (by omega)]
      omega
    have vb : limbsVal P.b (Big.rsub (Big.mul P.b x.b.x y.b.x) (ucopy P.md)) = p * 2 ^ (P.b * P.n) - limbsVal P.b x.b.x * limbsVal P.b y.b.x := by
      have e : Big.rsub (Big.mul P.b x.b.x y.b.x) (ucopy P.md) = Big.sub (ucopy P.md) (Big.mul P.b x.b.x y.b.x) := by
        unfold Big.rsub Big.sub
        rw [List.zipWith_comm]
      rw [e, sub_val (by omega) _ _ (by rw [u1, b1]) _ _ u2.within1 b2.within1 (by linarith), u3, b3]
    have lenb : (Big.rsub (Big.mul P.b x.b.x y.b.x) (ucopy P.md)).length = 2 * P.n := by unfold Big.rsub; rw [List.length_zipWith, b1, u1]; omega
    have w := add_within (by omega) _ _ _ _ a2.within1 wb (by linarith)
    have v := add_val (b := P.b) (by omega) _ _ (by rw [a1, lenb]) _ _ a2.within1 wb (by linarith)
    rw [a3, vb] at v
    have len : (Big.add (Big.mul P.b x.a.x y.a.x) (Big.rsub (Big.mul P.b x.b.x y.b.x) (ucopy P.md))).length = 2 * P.n := by
      unfold Big.add; rw [List.length_zipWith, a1, lenb]; omega
    have r := norm_rep h.ok _ (List.ne_nil_of_length_pos (by rw [len]; omega)) (fun z hz => by have := w z hz; constructor <;> linarith)
    rw [len, v] at r
    have p1 := mul_nonneg na nc
    have p2 := mul_nonneg nb nd
    have m := modulo_wide h (j := 2) le_rfl r.len (r.digits (by linarith) (by linarith)) (by rw [r.val]; push_cast; linarith)
    refine Elem.to' m ?_
    rw [r.val]
    push_cast
    rw [ZMod.natCast_self]
    unfold residue
    ring
  · -- imaginary part: e - (a + b)
    have wf : ∀ z ∈ Big.add (Big.mul P.b x.a.x y.a.x) (Big.mul P.b x.b.x y.b.x), 0 ≤ z.toInt ∧ z.toInt ≤ 2 * (2 ^ P.b - 1) := by
      intro z hz
      unfold Big.add at hz
      obtain ⟨i, hi, rfl⟩ := List.getElem_of_mem hz
      rw [List.getElem_zipWith]
      rw [List.length_zipWith] at hi
      have q1 := a2 _ (List.getElem_mem (by omega : i < (Big.mul P.b x.a.x y.a.x).length))
      have q2 := b2 _ (List.getElem_mem (by omega : i < (Big.mul P.b x.b.x y.b.x).length))
      rw [toInt_add_of _ _ (by omega) (by omega) (by omega)]
      omega
    have vf := add_val (b := P.b) (by omega) _ _ (by rw [a1, b1]) _ _ a2.within1 b2.within1 (by linarith)
    rw [a3, b3] at vf
    have lenf : (Big.add (Big.mul P.b x.a.x y.a.x) (Big.mul P.b x.b.x y.b.x)).length = 2 * P.n := by
      unfold Big.add; rw [List.length_zipWith, a1, b1]; omega
    have w : LimbsWithin (2 * (2 ^ P.b - 1)) (Big.sub (Big.mul P.b (Big.norm P.b (Big.add x.a.x x.b.x)) (Big.norm P.b (Big.add y.a.x y.b.x)))
        (Big.add (Big.mul P.b x.a.x y.a.x) (Big.mul P.b x.b.x y.b.x))) := by
      refine zip_range _ (a1 := 0) (a2 := 2 ^ P.b - 1) (b1 := 0) (b2 := 2 * (2 ^ P.b - 1)) _ _ (fun z hz => by have := e2 z hz; omega) wf ?_
      intro s t s1 s2 t1 t2
      rw [toInt_sub_of _ _ (by omega) (by omega) (by omega)]
      omega
    have hfw : LimbsWithin (2 * (2 ^ P.b - 1)) (Big.add (Big.mul P.b x.a.x y.a.x) (Big.mul P.b x.b.x y.b.x)) := fun z hz => by
      have := wf z hz; omega
    have v := sub_val (b := P.b) (by omega) _ _ (by rw [e1, lenf]) _ _ e2.within1 hfw (by
      have : (2 : Int) ^ (P.b + 2) ≤ 2 ^ (C - 1) := pow_le_pow_right₀ (by norm_num) (by omega)
      rw [pow_add] at this
      linarith)
    rw [e3, vf] at v
    have len : (Big.sub (Big.mul P.b (Big.norm P.b (Big.add x.a.x x.b.x)) (Big.norm P.b (Big.add y.a.x y.b.x)))
        (Big.add (Big.mul P.b x.a.x y.a.x) (Big.mul P.b x.b.x y.b.x))).length = 2 * P.n := by
      unfold Big.sub; rw [List.length_zipWith, e1, lenf]; omega
    have r := norm_rep h.ok _ (List.ne_nil_of_length_pos (by rw [len]; omega)) (fun z hz => by have := w z hz; constructor <;> linarith)
    rw [len, v] at r
    have p1 := mul_nonneg na nc
    have p2 := mul_nonneg nb nd
    have p3 := mul_nonneg na nd
    have p4 := mul_nonneg nb nc
    have m := modulo_wide h (j := 1) (by omega) r.len (r.digits (by linarith) (by linarith)) (by rw [r.val]; push_cast; linarith)
    refine Elem.to' m ?_
    rw [r.val]
    push_cast
    unfold residue
    ring

end Verif.Tower
