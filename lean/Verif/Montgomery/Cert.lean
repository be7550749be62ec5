import Verif.Montgomery.Codec
import Verif.Ecp.Order
/- The Montgomery ladder on residues, for the order of the generator; the point of order two. -/
namespace Verif.Ecp
open WeierstrassCurve
open Verif.Big Verif.Fp Verif.Rom Verif.Curve Verif.Prog Spec

set_option linter.unusedSectionVars false

/-- doubling of an abscissa `X : Z` modulo `p`; `a4` is `(A + 2) / 4` -/
def xdblN (p a4 : Nat) (P : Nat × Nat) : Nat × Nat :=
  force P.1 fun x => force P.2 fun z =>
  force ((x + z) * (x + z) % p) fun s =>
  force ((x + (p - z % p)) * (x + (p - z % p)) % p) fun d =>
  force ((s + (p - d % p)) % p) fun c =>
  (s * d % p, c * (d + a4 * c) % p)

/-- differential addition; `xd` is the abscissa of the difference -/
def xaddN (p xd : Nat) (P Q : Nat × Nat) : Nat × Nat :=
  force P.1 fun x => force P.2 fun z => force Q.1 fun x' => force Q.2 fun z' =>
  force ((x * x' + (p - z * z' % p)) % p) fun u =>
  force ((x * z' + (p - z * x' % p)) % p) fun v =>
  (4 * (u * u) % p, 4 * xd % p * (v * v) % p)

/-- abscissae of `e • T` and `(e + 1) • T` -/
def ladN (p a4 xd : Nat) : Nat → Nat → (Nat × Nat) × (Nat × Nat)
  | 0, _ => ((1, 0), (xd, 1))
  | k + 1, e =>
      let h := ladN p a4 xd k (e / 2)
      let s := xaddN p xd h.2 h.1
      if e % 2 = 1 then (s, xdblN p a4 h.2) else (xdblN p a4 h.1, s)

section
variable {p : Nat} [hp : Fact p.Prime] {A : ZMod p}

theorem xdblN_cast (a4 : Nat) (P : Nat × Nat) :
    ((xdblN p a4 P).1 : ZMod p) = ((P.1 : ZMod p) ^ 2 - (P.2 : ZMod p) ^ 2) ^ 2 ∧
    ((xdblN p a4 P).2 : ZMod p) = 4 * (P.1 : ZMod p) * P.2 * (((P.1 : ZMod p) - P.2) ^ 2 + a4 * (4 * P.1 * P.2)) := by
  have : NeZero p := ⟨hp.1.ne_zero⟩
  simp only [xdblN, force_eq, ZMod.natCast_mod, Nat.cast_add, Nat.cast_mul, cast_psub]
  constructor <;> ring

theorem xaddN_cast (xd : Nat) (P Q : Nat × Nat) :
    ((xaddN p xd P Q).1 : ZMod p) = 4 * ((P.1 : ZMod p) * Q.1 - P.2 * Q.2) ^ 2 ∧
    ((xaddN p xd P Q).2 : ZMod p) = 4 * (xd : ZMod p) * ((P.1 : ZMod p) * Q.2 - P.2 * Q.1) ^ 2 := by
  have : NeZero p := ⟨hp.1.ne_zero⟩
  simp only [xaddN, force_eq, ZMod.natCast_mod, Nat.cast_add, Nat.cast_mul, cast_psub]
  constructor
  · push_cast; ring
  · push_cast; ring

theorem ladN_ok (h2 : (2 : ZMod p) ≠ 0) (hA : A ≠ 2 ∧ A ≠ -2) {a4 xd : Nat} (h4 : 4 * (a4 : ZMod p) = A + 2) (hxd : (xd : ZMod p) ≠ 0) {T : (mont A).Point} (hT : XOf (xd : ZMod p) 1 T)
    (k : Nat) : ∀ e, e < 2 ^ k →
      (XOf ((ladN p a4 xd k e).1.1 : ZMod p) ((ladN p a4 xd k e).1.2 : ZMod p) (e • T) ∧ (((ladN p a4 xd k e).1.1 : ZMod p) ≠ 0 ∨ ((ladN p a4 xd k e).1.2 : ZMod p) ≠ 0)) ∧
      (XOf ((ladN p a4 xd k e).2.1 : ZMod p) ((ladN p a4 xd k e).2.2 : ZMod p) ((e + 1) • T) ∧ (((ladN p a4 xd k e).2.1 : ZMod p) ≠ 0 ∨ ((ladN p a4 xd k e).2.2 : ZMod p) ≠ 0)) := by
  induction k with
  | zero =>
    intro e he
    have : e = 0 := by simpa using he
    subst this
    simp only [ladN]
    rw [zero_nsmul T, zero_add, one_nsmul]
    exact ⟨⟨by show ((0 : Nat) : ZMod p) = 0; simp, .inl (by simp)⟩, by rw [Nat.cast_one]; exact hT, .inl hxd⟩
  | succ k ih =>
    intro e he
    obtain ⟨⟨a1, a2⟩, b1, b2⟩ := ih (e / 2) (by rw [pow_succ] at he; omega)
    simp only [ladN]
    generalize hl : ladN p a4 xd k (e / 2) = l at *
    have hs := xAdd h2 hA b1 a1 b2 a2 hxd (D := T) (by rw [add_nsmul T _ _, one_nsmul, add_sub_cancel_left]) hT
    rw [← (xaddN_cast xd l.2 l.1).1, ← (xaddN_cast xd l.2 l.1).2] at hs
    have es : ∀ a b c : Nat, a + b = c → a • T + b • T = c • T := fun a b c hh => by rw [← hh]; exact (add_nsmul T _ _).symm
    have d0 := xDbl h2 hA h4 a1
    rw [← (xdblN_cast a4 l.1).1, ← (xdblN_cast a4 l.1).2] at d0
    have d1 := xDbl h2 hA h4 b1
    rw [← (xdblN_cast a4 l.2).1, ← (xdblN_cast a4 l.2).2] at d1
    by_cases g : e % 2 = 1
    · rw [if_pos g]
      rw [es _ _ e (by omega)] at hs
      rw [es _ _ (e + 1) (by omega)] at d1
      exact ⟨hs, d1.1, d1.2 b2⟩
    · rw [if_neg g]
      rw [es _ _ (e + 1) (by omega)] at hs
      rw [es _ _ e (by omega)] at d0
      exact ⟨⟨d0.1, d0.2 a2⟩, hs⟩

/-- the check: `e` times the point of abscissa `xd` is the point at infinity -/
def zeroMB (p a4 xd e : Nat) : Bool := (ladN p a4 xd (e.log2 + 1) e).1.2 == 0

theorem zeroMB_sound (h2 : (2 : ZMod p) ≠ 0) (hA : A ≠ 2 ∧ A ≠ -2) {a4 xd e : Nat} (h4 : 4 * (a4 : ZMod p) = A + 2) (hxd : (xd : ZMod p) ≠ 0) {T : (mont A).Point}
    (hT : XOf (xd : ZMod p) 1 T) (h : zeroMB p a4 xd e = true) : e • T = 0 := by
  obtain ⟨⟨a1, _⟩, _⟩ := ladN_ok h2 hA h4 hxd hT (e.log2 + 1) e Nat.lt_log2_self
  unfold zeroMB at h
  rw [beq_iff_eq] at h
  rw [h, Nat.cast_zero] at a1
  generalize e • T = S at a1
  cases S with
  | zero => rfl
  | some x y hh => exact absurd rfl a1.1

end

variable {C : Nat} {K : Rom C} [hp : Fact K.p.Prime]

/-- the only finite point of abscissa zero has order two -/
theorem absc_zero {T : MoPoint K} (hx : absc T = 0) : (2 : Nat) • T = 0 := by
  rw [two_nsmul]
  cases T with
  | zero => rfl
  | some x y hn =>
    have hx : x = 0 := hx
    subst hx
    have e1 := mont_eq.mp hn.1
    have hy : y = 0 := by
      have : y ^ 2 = 0 := by rw [e1]; ring
      exact pow_eq_zero_iff (two_ne_zero) |>.mp this
    subst hy
    exact Affine.Point.add_of_Y_eq rfl (by rw [mont_negY, neg_zero])

/-- multiples of a point of odd order avoid it -/
theorem absc_odd {T : MoPoint K} {r : Nat} (hr : r • T = 0) (hodd : r % 2 = 1) (n : Nat) (h : n • T ≠ 0) : absc (n • T) ≠ 0 := by
  intro hx
  have h2 := absc_zero hx
  have h3 : r • (n • T) = 0 := by
    rw [← mul_nsmul', Nat.mul_comm, mul_nsmul', hr]; exact nsmul_zero _
  have : r = r / 2 * 2 + 1 := by omega
  rw [this, add_nsmul _ _ _, one_nsmul, mul_nsmul', h2] at h3
  have h0 : (r / 2) • (0 : MoPoint K) = 0 := nsmul_zero _
  rw [h0, zero_add] at h3
  exact h h3

theorem dblM_legal (h : MoCurve K) {s : Pt C} (hs : Legal K s) : Legal K (dbl K s) := by
  have hz := elem_zero h.arith
  have hpr : dblProg K = dblMo ((K.a + 2) / 4) := by simp [dblProg, h.type]
  have key := prog_ok h.arith h.word h.bv (good_Mo h).1 (abs_dblMo _) hs hs hz
  rw [← hpr] at key
  exact (Legal.of (s := dbl K s) key.1 key.2.1 key.2.2).1

theorem daddM_zero (h : MoCurve K) {s q w : Pt C} (hs : Legal K s) (hq : Legal K q) (hw : Legal K w) :
    Legal K (dadd K s q w) ∧ ((coords K w).x = 0 → (coords K (dadd K s q w)).z = 0) := by
  obtain ⟨w1, _, _⟩ := hw.elems
  have key := prog_ok h.arith h.word h.bv (good_Mo h).2 abs_dadd hs hq w1
  have e1 := dadd_x (initV K (coords K s) (coords K q) (coords K w).x (Bcoef K)) (fun _ a => a)
  have e3 := dadd_z (initV K (coords K s) (coords K q) (coords K w).x (Bcoef K)) (fun _ a => a)
  obtain ⟨l, ec⟩ := Legal.of (s := dadd K s q w) (Elem.to key.1 e1) key.2.1 (Elem.to key.2.2 e3)
  refine ⟨l, fun h0 => ?_⟩
  rw [ec]
  show 4 * (coords K w).x * _ = 0
  rw [h0, mul_zero, zero_mul]

theorem cswapM_legal (h : MoCurve K) {s q : Pt C} (hs : Legal K s) (hq : Legal K q) (b : Nat) (hb : b = 0 ∨ b = 1) :
    Legal K (cswap K s q b).1 ∧ Legal K (cswap K s q b).2 := by
  obtain ⟨c0, c1, c2, c3, c4, c5, c6⟩ := cswapM_ok h hs hq
  rcases hb with rfl | rfl
  · rw [c0]; exact ⟨hs, hq⟩
  · refine ⟨⟨?_, ?_, ?_⟩, ⟨?_, ?_, ?_⟩⟩
    · rw [c1]; exact hq.x
    · rw [c3]; exact hs.y
    · rw [c2]; exact hq.z
    · rw [c4]; exact hs.x
    · rw [c6]; exact hq.y
    · rw [c5]; exact hs.z

/-- the point of order two: odd multiples other than the first come out as the point at infinity -/
theorem mulMont_two (h : MoCurve K) {s : Pt C} {T : MoPoint K} (hs : IsPointM K s T) (hT : T ≠ 0) (hx : absc T = 0) {e : Limbs C} {E : Nat} (he : Rep K.P.b K.P.n e E)
    (hE1 : 1 < E) (hodd : E % 2 = 1) (hE : (E : Int) < 2 ^ (K.P.b * K.P.n)) : Legal K (mulMont K s e) ∧ (coords K (mulMont K s e)).z = 0 := by
  have ok := h.arith.ok
  have hn := h.arith.hn
  have hdig := he.digits (by positivity) hE
  obtain ⟨a1, a2⟩ := affineM_ok h hs
  obtain ⟨a2, a3⟩ := a2 hT
  have hnr := Digits.norm_rep ok (he.ne_nil (by omega)) hdig
  rw [he.len, he.val] at hnr
  obtain ⟨n1, n2, _⟩ := nbits_spec ok e hnr (by positivity)
  unfold mulMont
  dsimp only
  generalize hnb : nbits K.P.b e = nb at *
  have n1 : E < 2 ^ nb := by exact_mod_cast n1
  have hnb2 : 2 ≤ nb := by
    by_contra hc
    have : 2 ^ nb ≤ 2 ^ 1 := Nat.pow_le_pow_right (by norm_num) (by omega)
    omega
  obtain ⟨m, rfl⟩ : ∃ m, nb = m + 2 := ⟨nb - 2, by omega⟩
  have hnbb : m + 1 < K.P.b * K.P.n := by
    obtain ⟨_, n3⟩ := n2 (by exact_mod_cast (by omega : E ≠ 0))
    by_contra hc
    have : (2 : Int) ^ (K.P.b * K.P.n) ≤ 2 ^ (m + 2 - 1) := pow_le_pow_right₀ (by norm_num) (by omega)
    omega
  have hbit : ∀ i, i < K.P.b * K.P.n → (bit K.P.b e i).toNat = E / 2 ^ i % 2 := by
    intro i hi
    have hbit := bit_spec ok hdig i (by rw [he.len]; exact Nat.div_lt_of_lt_mul hi)
    rw [he.val] at hbit
    rw [hbit]
    have : ((E : Int) / 2 ^ i % 2) = ((E / 2 ^ i % 2 : Nat) : Int) := by push_cast; rfl
    rw [this, Int.toNat_natCast]
  have leg : ∀ l : List Nat, (∀ i ∈ l, i < K.P.b * K.P.n) → ∀ R : Pt C × Pt C, Legal K R.1 → Legal K R.2 →
      Legal K (l.foldl (fun R i => ladderStep K (affine K s) R (bit K.P.b e i).toNat) R).1 ∧
      Legal K (l.foldl (fun R i => ladderStep K (affine K s) R (bit K.P.b e i).toNat) R).2 := by
    intro l
    induction l with
    | nil => intro _ R h1 h2; exact ⟨h1, h2⟩
    | cons i l ih =>
      intro hl R h1 h2
      rw [List.foldl_cons]
      have hb : (bit K.P.b e i).toNat = 0 ∨ (bit K.P.b e i).toNat = 1 := by rw [hbit i (hl i (by simp))]; omega
      obtain ⟨c1, c2⟩ := cswapM_legal h h1 h2 _ hb
      obtain ⟨r1, r2⟩ := cswapM_legal h (dblM_legal h c1) (daddM_zero h h2 h1 a1.1).1 _ hb
      exact ih (fun j hj => hl j (by simp [hj])) _ r1 r2
  have e1 : (List.range (m + 2 - 1)).reverse = (List.range (m + 2 - 1)).reverse.dropLast ++ [0] := by
    rw [show m + 2 - 1 = m + 1 from rfl, List.range_succ_eq_map, List.reverse_cons, List.dropLast_concat]
  have hmem : ∀ i ∈ (List.range (m + 2 - 1)).reverse.dropLast, i < K.P.b * K.P.n := by
    intro i hi
    have := List.dropLast_subset _ hi
    rw [List.mem_reverse, List.mem_range] at this
    omega
  obtain ⟨l1, l2⟩ := leg _ hmem (s, dbl K s) hs.1 (dblM_legal h hs.1)
  rw [e1, List.foldl_append, List.foldl_cons, List.foldl_nil]
  generalize (List.range (m + 2 - 1)).reverse.dropLast.foldl (fun R i => ladderStep K (affine K s) R (bit K.P.b e i).toNat) (s, dbl K s) = R at *
  have hb1 : (bit K.P.b e 0).toNat = 1 := by rw [hbit 0 (by omega), pow_zero, Nat.div_one]; exact hodd
  rw [hb1]
  unfold ladderStep
  dsimp only
  obtain ⟨c1, c2⟩ := cswapM_legal h l1 l2 1 (.inr rfl)
  obtain ⟨d1, d2⟩ := daddM_zero h l2 l1 a1.1
  have dd := dblM_legal h c1
  refine ⟨(cswapM_legal h dd d1 1 (.inr rfl)).1, ?_⟩
  obtain ⟨_, _, k, _⟩ := cswapM_ok h dd d1
  show residue K.P K.p _ = 0
  rw [k]
  exact d2 (a2.trans hx)

end Verif.Ecp
