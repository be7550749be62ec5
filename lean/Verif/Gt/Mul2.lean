import Verif.Tower.Field2
/- `FP2::mul` in terms of the stored integers instead of the excess counters (fp2.rs:229-264). -/
namespace Verif.Tower
open Verif.Big Verif.Fp Spec

variable {C : Nat} {P : Params C} {p : Nat}

/-- the normalised sum of the components -/
theorem sum_digits_val (h : Consts P p) [Fact p.Prime] {x y : Fp C} (hx : Valid P p 1 x) (hy : Valid P p 1 y) (h5 : limbsVal P.b x.x + limbsVal P.b y.x < 2 ^ (P.b * P.n)) :
    (Big.norm P.b (Big.add x.x y.x)).length = P.n ∧ Digits P.b (Big.norm P.b (Big.add x.x y.x)) ∧
      limbsVal P.b (Big.norm P.b (Big.add x.x y.x)) = limbsVal P.b x.x + limbsVal P.b y.x := by
  have hC := h.ok.hC
  have hp2 : (2 : Int) * (2 ^ P.b - 1) ≤ 2 ^ (C - 2) := by
    have : (2 : Int) ^ (P.b + 1) ≤ 2 ^ (C - 2) := pow_le_pow_right₀ (by norm_num) (by omega)
    rw [pow_succ] at this; linarith
  have hp1 : (2 : Int) ^ (C - 2) < 2 ^ (C - 1) := pow_lt_pow_right₀ (by norm_num) (by omega)
  have hl : x.x.length = y.x.length := by rw [hx.len, hy.len]
  have w := add_within (by omega) x.x y.x _ _ hx.within hy.within (by linarith)
  have e := add_val (b := P.b) (by omega) x.x y.x hl _ _ hx.within hy.within (by linarith)
  have hlen : (Big.add x.x y.x).length = P.n := by simp [Big.add, hx.len, hy.len]
  have hn := h.hn
  have r := norm_rep h.ok (Big.add x.x y.x) (by intro e0; rw [e0] at hlen; simp at hlen; omega)
    (fun z hz => by have := w z hz; constructor <;> linarith)
  rw [hlen, e] at r
  have h3 := hx.nonneg; have h4 := hy.nonneg
  exact ⟨r.len, r.digits (by linarith) (by linarith), r.val⟩

set_option maxHeartbeats 1000000 in
theorem mul2_val (h : MontConsts P p) [Fact p.Prime] {x y : Fp2 C} (hxa : Valid P p 1 x.a) (hxb : Valid P p 1 x.b) (hya : Valid P p 1 y.a)
    (hyb : Valid P p 1 y.b) (hsx : limbsVal P.b x.a.x + limbsVal P.b x.b.x < 2 ^ (P.b * P.n)) (hsy : limbsVal P.b y.a.x + limbsVal P.b y.b.x < 2 ^ (P.b * P.n))
    (hA : limbsVal P.b x.a.x * limbsVal P.b y.a.x < p * 2 ^ (P.b * P.n)) (hBb : limbsVal P.b x.b.x * limbsVal P.b y.b.x < p * 2 ^ (P.b * P.n))
    (hE : limbsVal P.b x.a.x * limbsVal P.b y.b.x + limbsVal P.b x.b.x * limbsVal P.b y.a.x < p * 2 ^ (P.b * P.n)) :
    Elem P p 0 1 { x := modulo P (Big.norm P.b (Big.add (Big.mul P.b x.a.x y.a.x) (Big.rsub (Big.mul P.b x.b.x y.b.x) (ucopy P.md)))), xes := 3 }
        (residue P p x.a * residue P p y.a - residue P p x.b * residue P p y.b) ∧
      Elem P p 0 1 { x := modulo P (Big.norm P.b (Big.sub (Big.mul P.b (Big.norm P.b (Big.add x.a.x x.b.x)) (Big.norm P.b (Big.add y.a.x y.b.x)))
        (Big.add (Big.mul P.b x.a.x y.a.x) (Big.mul P.b x.b.x y.b.x)))), xes := 2 }
        (residue P p x.a * residue P p y.b + residue P p x.b * residue P p y.a) := by
  have hC := h.ok.hC
  have hn := h.hn
  have hpz : (0 : Int) < p := by exact_mod_cast h.ppos
  have hR := two_pow_pos' (P.b * P.n)
  have hp2 : (2 : Int) * (2 ^ P.b - 1) ≤ 2 ^ (C - 2) := by
    have : (2 : Int) ^ (P.b + 1) ≤ 2 ^ (C - 2) := pow_le_pow_right₀ (by norm_num) (by omega)
    rw [pow_succ] at this; linarith
  have hp1 : (2 : Int) * 2 ^ (C - 2) = 2 ^ (C - 1) := by rw [← pow_succ']; congr 1; omega
  have hB : (2 : Int) ^ 9 ≤ 2 ^ P.b := pow_le_pow_right₀ (by norm_num) h.ok.hb
  have ps := h.p_sh
  -- the three products
  obtain ⟨a1, a2, a3⟩ := mul_signed h.ok hxa.within hya.within hxa.nonneg hya.nonneg (by rw [hxa.len, hya.len]) (by rw [hxa.len]; omega)
    (by rw [hxa.len]; exact h.fits)
  obtain ⟨b1, b2, b3⟩ := mul_signed h.ok hxb.within hyb.within hxb.nonneg hyb.nonneg (by rw [hxb.len, hyb.len]) (by rw [hxb.len]; omega)
    (by rw [hxb.len]; exact h.fits)
  obtain ⟨c1, c2, c3⟩ := sum_digits_val h.toConsts hxa hxb hsx
  obtain ⟨d1, d2, d3⟩ := sum_digits_val h.toConsts hya hyb hsy
  obtain ⟨e1, e2, e3⟩ := mul_spec h.ok c2 d2 (by rw [c1, d1]) (by rw [c1]; omega) (by rw [c1]; exact h.fits)
  rw [hxa.len] at a1
  rw [hxb.len] at b1
  rw [c1] at e1
  rw [c3, d3] at e3
  obtain ⟨u1, u2, u3⟩ := ucopy_spec h.toConsts
  have na := hxa.nonneg; have nb := hxb.nonneg; have nc := hya.nonneg; have nd := hyb.nonneg
  have h5 : 2 ^ 5 ≤ 2 ^ P.sh := Nat.pow_le_pow_right (by norm_num) h.sh5
  have h2p := h.xes_p (x := 2) (by omega)
  push_cast at h2p
  have hRR : (2 : Int) ^ (P.b * (2 * P.n)) = 2 ^ (P.b * P.n) * 2 ^ (P.b * P.n) := by rw [← pow_add]; congr 1; ring
  have hbig : (2 : Int) * (p * 2 ^ (P.b * P.n)) < 2 ^ (P.b * (2 * P.n)) := by
    rw [hRR, ← mul_assoc]
    exact mul_lt_mul_of_pos_right h2p hR
  have hf : (P.factor : ZMod p) = 2 ^ (P.b * P.n) := by simp [Params.factor, Params.plain, h.type]
  have hne := factor_ne h.toConsts
  constructor
  · -- real part: a + (pR - b)
    have wb : LimbsWithin (2 ^ P.b - 1) (Big.rsub (Big.mul P.b x.b.x y.b.x) (ucopy P.md)) := by
      refine zip_range _ (a1 := 0) (a2 := 2 ^ P.b - 1) (b1 := 0) (b2 := 2 ^ P.b - 1) _ _ (fun z hz => by have := b2 z hz; omega)
        (fun z hz => by have := u2 z hz; omega) ?_
      intro s t s1 s2 t1 t2
      rw [toInt_sub_of _ _ (by omega) (by omega) (by omega)]
      omega
    have vb : limbsVal P.b (Big.rsub (Big.mul P.b x.b.x y.b.x) (ucopy P.md)) = p * 2 ^ (P.b * P.n) - limbsVal P.b x.b.x * limbsVal P.b y.b.x := by
      have e : Big.rsub (Big.mul P.b x.b.x y.b.x) (ucopy P.md) = Big.sub (ucopy P.md) (Big.mul P.b x.b.x y.b.x) := by
        unfold Big.rsub Big.sub
        rw [List.zipWith_comm]
      rw [e, sub_val (by omega) _ _ (by rw [u1, b1]) _ _ u2.within1 b2.within1 (by linarith), u3, b3]
    have lenb : (Big.rsub (Big.mul P.b x.b.x y.b.x) (ucopy P.md)).length = 2 * P.n := by unfold Big.rsub; rw [List.length_zipWith, b1, u1]; omega
    have w := add_within (by omega) _ _ _ _ a2.within1 wb (by linarith)
    have v := add_val (b := P.b) (by omega) _ _ (by rw [a1, lenb]) _ _ a2.within1 wb (by linarith)
    rw [a3, vb] at v
    have len : (Big.add (Big.mul P.b x.a.x y.a.x) (Big.rsub (Big.mul P.b x.b.x y.b.x) (ucopy P.md))).length = 2 * P.n := by
      unfold Big.add; rw [List.length_zipWith, a1, lenb]; omega
    have r := norm_rep h.ok _ (List.ne_nil_of_length_pos (by rw [len]; omega)) (fun z hz => by have := w z hz; constructor <;> linarith)
    rw [len, v] at r
    have p1 := mul_nonneg na nc
    have p2 := mul_nonneg nb nd
    have m := modulo_wide h (j := 2) le_rfl r.len (r.digits (by linarith) (by linarith)) (by rw [r.val]; push_cast; linarith)
    refine Elem.to' m ?_
    rw [r.val]
    push_cast
    rw [ZMod.natCast_self]
    unfold residue
    ring
  · -- imaginary part: e - (a + b)
    have wf : ∀ z ∈ Big.add (Big.mul P.b x.a.x y.a.x) (Big.mul P.b x.b.x y.b.x), 0 ≤ z.toInt ∧ z.toInt ≤ 2 * (2 ^ P.b - 1) := by
      intro z hz
      unfold Big.add at hz
      obtain ⟨i, hi, rfl⟩ := List.getElem_of_mem hz
      rw [List.getElem_zipWith]
      rw [List.length_zipWith] at hi
      have q1 := a2 _ (List.getElem_mem (by omega : i < (Big.mul P.b x.a.x y.a.x).length))
      have q2 := b2 _ (List.getElem_mem (by omega : i < (Big.mul P.b x.b.x y.b.x).length))
      rw [toInt_add_of _ _ (by omega) (by omega) (by omega)]
      omega
    have vf := add_val (b := P.b) (by omega) _ _ (by rw [a1, b1]) _ _ a2.within1 b2.within1 (by linarith)
    rw [a3, b3] at vf
    have lenf : (Big.add (Big.mul P.b x.a.x y.a.x) (Big.mul P.b x.b.x y.b.x)).length = 2 * P.n := by
      unfold Big.add; rw [List.length_zipWith, a1, b1]; omega
    have w : LimbsWithin (2 * (2 ^ P.b - 1)) (Big.sub (Big.mul P.b (Big.norm P.b (Big.add x.a.x x.b.x)) (Big.norm P.b (Big.add y.a.x y.b.x)))
        (Big.add (Big.mul P.b x.a.x y.a.x) (Big.mul P.b x.b.x y.b.x))) := by
      refine zip_range _ (a1 := 0) (a2 := 2 ^ P.b - 1) (b1 := 0) (b2 := 2 * (2 ^ P.b - 1)) _ _ (fun z hz => by have := e2 z hz; omega) wf ?_
      intro s t s1 s2 t1 t2
      rw [toInt_sub_of _ _ (by omega) (by omega) (by omega)]
      omega
    have hfw : LimbsWithin (2 * (2 ^ P.b - 1)) (Big.add (Big.mul P.b x.a.x y.a.x) (Big.mul P.b x.b.x y.b.x)) := fun z hz => by
      have := wf z hz; omega
    have v := sub_val (b := P.b) (by omega) _ _ (by rw [e1, lenf]) _ _ e2.within1 hfw (by
      have : (2 : Int) ^ (P.b + 2) ≤ 2 ^ (C - 1) := pow_le_pow_right₀ (by norm_num) (by omega)
      rw [pow_add] at this
      linarith)
    rw [e3, vf] at v
    have len : (Big.sub (Big.mul P.b (Big.norm P.b (Big.add x.a.x x.b.x)) (Big.norm P.b (Big.add y.a.x y.b.x)))
        (Big.add (Big.mul P.b x.a.x y.a.x) (Big.mul P.b x.b.x y.b.x))).length = 2 * P.n := by
      unfold Big.sub; rw [List.length_zipWith, e1, lenf]; omega
    have r := norm_rep h.ok _ (List.ne_nil_of_length_pos (by rw [len]; omega)) (fun z hz => by have := w z hz; constructor <;> linarith)
    rw [len, v] at r
    have p1 := mul_nonneg na nc
    have p2 := mul_nonneg nb nd
    have p3 := mul_nonneg na nd
    have p4 := mul_nonneg nb nc
    have m := modulo_wide h (j := 1) (by omega) r.len (r.digits (by linarith) (by linarith)) (by rw [r.val]; push_cast; linarith)
    refine Elem.to' m ?_
    rw [r.val]
    push_cast
    unfold residue
    ring

end Verif.Tower
