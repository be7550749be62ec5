import Verif.Fp.Hist
import Verif.Fp.GoldiOps
import Verif.Fp.Sqrt5
import Verif.Props.Rom
import Verif.Rom.Primes
import Verif.Big.Jacobi
/-
C16, C17: prime-field arithmetic (`fp.rs`).
-/
namespace Verif.Props
open Verif.Big Verif.Fp Verif.Rom Spec

variable {C : Nat} {P : Params C} {p : Nat} [Fact p.Prime]

/-! ### C16 -/

/-- C16. Every representative produced by a history of field operations denotes the result of the same
operations carried out in `Z/p`. -/
theorem C16_residue (h : Arith P p) (hC : C ≤ 64) {l k : Nat} {a : Fp C} {v : ZMod p} (hh : History P p l k a v) :
    residue P p a = v := (history_inv h hC hh).res

/-- C16. The excess counter of every representative produced by a history bounds the stored integer,
stays within `FEXCESS`, and the limbs stay between `-l` and `k` digits, which do not overflow a word. -/
theorem C16_excess (h : Arith P p) (hC : C ≤ 64) {l k : Nat} {a : Fp C} {v : ZMod p} (hh : History P p l k a v) :
    a.x.length = P.n ∧ 0 ≤ limbsVal P.b a.x ∧ limbsVal P.b a.x < a.xes * p ∧ 1 ≤ a.xes ∧ a.xes ≤ 2 ^ P.sh - 1 ∧
    (∀ z ∈ a.x, -((l : Int) * (2 ^ P.b - 1)) ≤ z.toInt ∧ z.toInt ≤ k * (2 ^ P.b - 1)) ∧
    (l : Int) * 2 ^ P.b ≤ 2 ^ (C - 1) ∧ (k : Int) * 2 ^ P.b ≤ 2 ^ (C - 1) := by
  have i := history_inv h hC hh
  exact ⟨i.valid.len, i.valid.nonneg, i.valid.lt, i.valid.xes1, i.valid.xes2, i.range, (i.room.mono (le_max_left _ _)).int,
    (i.room.mono (le_max_right _ _)).int⟩

/-- the lazy count that always has room -/
theorem C16_room (h : Arith P p) : Room P 4 := room_one h.toConsts

/-- C16, square roots: for `p ≡ 3 (mod 4)` the root of a square squares back to it. -/
theorem C16_sqrt (h : MontConsts P p) (hC : C ≤ 64) {l k : Nat} {a : Fp C} {v : ZMod p} (hh : History P p l k a v)
    (hp4 : p % 4 = 3) (hsq : IsSquare v) : residue P p (sqrt P a) ^ 2 = v := by
  obtain ⟨i1, _, i2, i4, _⟩ := history_inv (h.arith hC) hC hh
  have := (sqrt_ok h.fieldOk (one_mont h) (by simp [Params.plain, h.type]) i1 i4 hp4 (by rw [i2]; exact hsq)).2
  rw [pow_two, this, i2]

/-- The same for pseudo-Mersenne moduli with `p ≡ 3 (mod 4)`, whose root is computed by the addition chain. -/
theorem C16_sqrt_plain (h : PMConsts P p) (he : PlainExp P p) (h5 : P.mod8 ≠ 5) (hC : C ≤ 64) {l k : Nat} {a : Fp C} {v : ZMod p} (hh : History P p l k a v)
    (hsq : IsSquare v) : residue P p (sqrt P a) ^ 2 = v := by
  obtain ⟨i1, _, i2, i4, _⟩ := history_inv (h.arith he hC) hC hh
  have := (sqrt_plain h.fieldOk (by simp [Params.plain, h.type]) he h5 i1 i4 (by rw [i2]; exact hsq)).2
  rw [pow_two, this, i2]

/-- The same for `p ≡ 5 (mod 8)`; the computation on zero, a constant of the ROM file, is `C16_sqrt_zero64`/`32`. -/
theorem C16_sqrt5 (h : PMConsts P p) (he : PlainExp P p) (h5 : P.mod8 = 5) (hz : SqrtZero P) (hC : C ≤ 64) {l k : Nat} {a : Fp C} {v : ZMod p}
    (hh : History P p l k a v) (hsq : IsSquare v) : residue P p (sqrt P a) ^ 2 = v := by
  obtain ⟨i1, _, i2, i4, _⟩ := history_inv (h.arith he hC) hC hh
  have := (sqrt_plain5 h.fieldOk (by simp [Params.plain, h.type]) he h5 hz i1 i4 (by rw [i2]; exact hsq)).2
  rw [pow_two, this, i2]

/-- C16 where the reduction is only right up to a product of `B` excess counters (Goldilocks, and NUMS-384 with 32-bit words):
histories whose multiplications respect the bound denote the result in `Z/p`, and the counters bound the stored integers. -/
theorem C16_bounded {B : Nat} (h : PlainB P p B) (he : PlainExp P p) (h4 : 4 ≤ B) (hC : C ≤ 64) {l k : Nat} {a : Fp C} {v : ZMod p}
    (hh : HistoryB P p B l k a v) :
    residue P p a = v ∧ a.x.length = P.n ∧ 0 ≤ limbsVal P.b a.x ∧ limbsVal P.b a.x < a.xes * p ∧ 1 ≤ a.xes ∧ a.xes ≤ 2 ^ P.sh - 1 ∧
    (∀ z ∈ a.x, -((l : Int) * (2 ^ P.b - 1)) ≤ z.toInt ∧ z.toInt ≤ k * (2 ^ P.b - 1)) ∧
    (l : Int) * 2 ^ P.b ≤ 2 ^ (C - 1) ∧ (k : Int) * 2 ^ P.b ≤ 2 ^ (C - 1) := by
  have i := history_on (h.arithOn he h4 hC) hC hh
  exact ⟨i.res, i.valid.len, i.valid.nonneg, i.valid.lt, i.valid.xes1, i.valid.xes2, i.range, (i.room.mono (le_max_left _ _)).int,
    (i.room.mono (le_max_right _ _)).int⟩

/-- Square roots there. -/
theorem C16_bounded_sqrt {B : Nat} (h : PlainB P p B) (he : PlainExp P p) (h5 : P.mod8 ≠ 5) (h4 : 4 ≤ B) (hC : C ≤ 64) {l k : Nat} {a : Fp C} {v : ZMod p}
    (hh : HistoryB P p B l k a v) (hsq : IsSquare v) : residue P p (sqrt P a) ^ 2 = v := by
  obtain ⟨i1, _, i2, i4, _⟩ := history_on (h.arithOn he h4 hC) hC hh
  have := (sqrtGM h he h5 h4 i1 i4 (by rw [i2]; exact hsq)).2
  rw [pow_two, this, i2]

/-- C17 there: `equals`, `iszilch` and the encoding after `reduce`. -/
theorem C17_bounded {B : Nat} (h : PlainB P p B) (he : PlainExp P p) (h4 : 4 ≤ B) (hC : C ≤ 64) {l k l' k' : Nat} {a c : Fp C} {v w : ZMod p}
    (ha : HistoryB P p B l k a v) (hc : HistoryB P p B l' k' c w) :
    (equals P a c = true ↔ v = w) ∧ (iszilch P a = true ↔ v = 0) ∧ Rep P.b P.n (redc P (reduce P a)) (v.val : Int) := by
  obtain ⟨i1, _, i2, i4, _⟩ := history_on (h.arithOn he h4 hC) hC ha
  obtain ⟨j1, _, j2, j4, _⟩ := history_on (h.arithOn he h4 hC) hC hc
  refine ⟨by rw [equals_ok h.toConsts i1 j1 i4 j4, i2, j2], by rw [iszilch_ok h.toConsts i1 i4, i2], ?_⟩
  obtain ⟨r1, r2, _, r4⟩ := reduce_ok h.toConsts i1 i4
  have := (h.arithOn he h4 hC).redc_ok _ r1 (by rw [r4]; exact Int.emod_lt_of_pos _ (by exact_mod_cast h.ppos))
  rwa [r2, i2] at this

/-- C16, the missing case of `imul`: multiplication by 0 sets the excess counter to 0, so that the counter no
longer bounds the representative, -/
theorem C16_imul_zero (hm : P.plain = false) (a : Fp C) : (Fp.imul P a 0).xes = 0 := by
  simp [Fp.imul, hm]

/-- and negating the result yields a non-zero element: `-(0 * x) ≠ 0` for BLS12-381 (`logb2(u32::MAX)` is
used as a shift). -/
theorem C16_neg_imul_zero : Fp.iszilch bls381_64.P (Fp.neg bls381_64.P (Fp.imul bls381_64.P (Fp.one bls381_64.P) 0)) = false := by
  decide +kernel

/-! ### C17 -/

/-- C17. Conversion to a field element and back is the identity on integers below `p`. -/
theorem C17_nres_redc (h : Arith P p) {x : Limbs C} {X : Nat} (hx : Rep P.b P.n x X) (hX : X < p) :
    Rep P.b P.n (redc P (newBig P x)) X := h.nres_redc x X hx hX

/-- C17. `equals` is equality of residues, whatever the representatives. -/
theorem C17_equals (h : Arith P p) (hC : C ≤ 64) {l k l' k' : Nat} {a c : Fp C} {v w : ZMod p} (ha : History P p l k a v) (hc : History P p l' k' c w) :
    equals P a c = true ↔ v = w := by
  obtain ⟨i1, _, i2, i4, _⟩ := history_inv h hC ha
  obtain ⟨j1, _, j2, j4, _⟩ := history_inv h hC hc
  rw [equals_ok h.toConsts i1 j1 i4 j4, i2, j2]

/-- C17. `iszilch` decides whether the residue is zero. -/
theorem C17_iszilch (h : Arith P p) (hC : C ≤ 64) {l k : Nat} {a : Fp C} {v : ZMod p} (ha : History P p l k a v) :
    iszilch P a = true ↔ v = 0 := by
  obtain ⟨i1, _, i2, i4, _⟩ := history_inv h hC ha
  rw [iszilch_ok h.toConsts i1 i4, i2]

/-- C17. The printed/encoded form (`redc`, then `tobytes`/`tostring`) of a normalised element is its residue in
`[0, p)` — except when the element is zero represented by a non-zero multiple of `p`, which is printed as `p`. -/
theorem C17_redc (h : MontConsts P p) (hC : C ≤ 64) {a : Fp C} {v : ZMod p} (ha : History P p 0 1 a v) :
    Rep P.b P.n (redc P a) (if v = 0 ∧ limbsVal P.b a.x ≠ 0 then (p : Int) else (v.val : Int)) := by
  have i := history_inv (h.arith hC) hC ha
  have := redc_mont h i.normed
  rwa [i.res] at this

/-- C17. After `reduce` the encoding depends only on the residue, zero included. -/
theorem C17_reduce_redc (h : Arith P p) (hC : C ≤ 64) {l k : Nat} {a : Fp C} {v : ZMod p} (ha : History P p l k a v) :
    Rep P.b P.n (redc P (reduce P a)) (v.val : Int) := by
  obtain ⟨i1, _, i2, i4, _⟩ := history_inv h hC ha
  obtain ⟨r1, r2, _, r4⟩ := reduce_ok h.toConsts i1 i4
  have := h.redc_ok _ r1 (by rw [r4]; exact Int.emod_lt_of_pos _ (by exact_mod_cast h.ppos))
  rwa [r2, i2] at this

/-- C17. `sgn0` of a reduced element is the parity of its residue, zero included. -/
theorem C17_reduce_sgn0 (h : Arith P p) (hC : C ≤ 64) {l k : Nat} {a : Fp C} {v : ZMod p} (ha : History P p l k a v) :
    sgn0 P (reduce P a) = decide (v.val % 2 = 1) := by
  have hr := C17_reduce_redc h hC ha
  unfold sgn0
  rw [hr.parity h.ok h.hn]
  rcases Nat.mod_two_eq_zero_or_one v.val with e | e
  · have : (v.val : Int) % 2 = 0 := by omega
    rw [e, this]; decide
  · have : (v.val : Int) % 2 = 1 := by omega
    rw [e, this]; decide

/-- C17. `sgn0` is the parity of the residue of every non-zero element. -/
theorem C17_sgn0 (h : MontConsts P p) (hC : C ≤ 64) {a : Fp C} {v : ZMod p} (ha : History P p 0 1 a v) (hv : v ≠ 0) :
    sgn0 P a = decide (v.val % 2 = 1) := by
  have hr := C17_redc h hC ha
  rw [if_neg (by simp [hv])] at hr
  unfold sgn0
  rw [hr.parity h.ok h.hn]
  rcases Nat.mod_two_eq_zero_or_one v.val with e | e
  · have : (v.val : Int) % 2 = 0 := by omega
    rw [e, this]; decide
  · have : (v.val : Int) % 2 = 1 := by omega
    rw [e, this]; decide

/-- C17. `jacobi` is the Legendre symbol of the residue. -/
theorem C17_jacobi (h : MontConsts P p) (hC : C ≤ 64) {a : Fp C} {v : ZMod p} (ha : History P p 0 1 a v) (fuel : Nat) (hf : 2 * (P.b * P.n) < fuel) :
    jacobi P fuel a = some (jacobiSym v.val p) := by
  have hr := C17_redc h hC ha
  have hcg := cap_ge (n := P.n) h.ok (by have := h.hn; omega)
  have hpR : (2 : Int) ^ 1 * p ≤ 2 ^ P.sh * p :=
    mul_le_mul_of_nonneg_right (pow_le_pow_right₀ (by norm_num) (by have := h.sh5; omega)) (by positivity)
  have hpS := h.p_sh
  have hcp := cap_pos C P.b P.n
  have h2 := h.two_lt
  have hvlt : (v.val : Int) < p := by exact_mod_cast ZMod.val_lt v
  have hjac : ∀ X : Nat, (X = v.val ∨ (v = 0 ∧ X = p)) → jacobiSym X p = jacobiSym v.val p := by
    rintro X (rfl | ⟨rfl, rfl⟩)
    · rfl
    · rw [jacobiSym.mod_left]; simp
  unfold Fp.jacobi
  have hne := hr.ne_nil (by have := h.hn; omega)
  split_ifs at hr with hz
  · have hn := Digits.norm_rep h.ok hne (hr.digits (by positivity) (by omega))
    rw [hr.len, hr.val] at hn
    rw [jacobi_spec h.ok h.hn fuel hf (X := p) hn h.md_rep (by omega) (by omega) (odd_of_prime h.toConsts) (by omega)]
    exact congrArg some (hjac p (Or.inr ⟨hz.1, rfl⟩))
  · have hn := Digits.norm_rep h.ok hne (hr.digits (by positivity) (by omega))
    rw [hr.len, hr.val] at hn
    rw [jacobi_spec h.ok h.hn fuel hf (X := v.val) hn h.md_rep (by omega) (by omega) (odd_of_prime h.toConsts) (by omega)]

/-- C17, the exception is reachable: `-0`, normalised, is printed as `p`, not as `0`, and has odd `sgn0`. -/
theorem C17_minus_zero : limbsVal 58 (redc bls381_64.P (Fp.norm bls381_64.P (Fp.neg bls381_64.P (Fp.zero bls381_64.P)))) = bls381_64.p
    ∧ Fp.sgn0 bls381_64.P (Fp.norm bls381_64.P (Fp.neg bls381_64.P (Fp.zero bls381_64.P))) = true := by
  decide +kernel

/-- C17. Without Montgomery form `redc` does not reduce: an element that was only normalised is encoded as the
integer that happens to be stored, for instance `(p - 1) + 5` as `p + 4`; the encoding is canonical only after
`reduce` (`C17_reduce_redc`). -/
theorem C17_plain_unreduced :
    (let P := c25519_64.P
     let a := Fp.norm P (Fp.add P (Fp.neg P (Fp.one P)) (Fp.newInt P 5))
     limbsVal P.b (redc P a) = c25519_64.p + 4 ∧ limbsVal P.b (redc P (Fp.reduce P a)) = 4) := by decide +kernel

/-! ### `2^384 - 317` with 29-bit limbs -/

/-- two integers below `2^384 - 317` -/
def nums384_u : Limbs 32 := [0x146D29CC#32, 0x1FFFFFFF#32, 0x1FFFFFFF#32, 0x1FFFFFFF#32, 0x1FFFFFFF#32, 0x1FFFFFFF#32, 0x1FFFFFFF#32, 0x1FFFFFFF#32, 0x1FFFFFFF#32, 0x1FFFFFFF#32, 0x1FFFFFFF#32, 0x1FFFFFFF#32, 0x1FFFFFFF#32, 0x7F#32]
def nums384_w : Limbs 32 := [0x15BBE833#32, 0x1FFFFFFF#32, 0x1FFFFFFF#32, 0x1FFFFFFF#32, 0x1FFFFFFF#32, 0x1FFFFFFF#32, 0x1FFFFFFF#32, 0x1FFFFFFF#32, 0x1FFFFFFF#32, 0x1FFFFFFF#32, 0x1FFFFFFF#32, 0x1FFFFFFF#32, 0x1FFFFFFF#32, 0x7F#32]

/-- C16 fails for the 32-bit ROM files of NUMS-384: the addition of `MCONST * (high part)` in `modulo`
overflows the 32-bit word although the product of the excess counters (`128 * 127 ≤ FEXCESS`) lets the
multiplication proceed without a reduction.  With `x = 128 u` obtained by seven doublings and `y = 127 w`
by six steps `y ↦ 2 y + w`, all normalised, `x * y` denotes a wrong residue (a debug build panics). -/
theorem C16_nums384_32_overflow :
    (let r := nums384w_32
     let P := r.P
     let u := Fp.newBig P nums384_u
     let w := Fp.newBig P nums384_w
     let x := (fun t => Fp.norm P (Fp.dbl P t))^[7] u
     let y := (fun t => Fp.norm P (Fp.add P (Fp.dbl P t) w))^[6] w
     limbsVal P.b nums384_u < r.p ∧ limbsVal P.b nums384_w < r.p ∧
     limbsVal P.b x.x = 128 * limbsVal P.b nums384_u ∧ limbsVal P.b y.x = 127 * limbsVal P.b nums384_w ∧
     limbsVal P.b (Fp.mul P x y).x % r.p ≠ limbsVal P.b x.x * limbsVal P.b y.x % r.p ∧
     limbsVal P.b (Fp.mul P x y).x % r.p = (limbsVal P.b x.x * limbsVal P.b y.x - 2 ^ 32) % r.p) := by decide +kernel

/-- the same constants in `rom_nums384e_32.rs` -/
theorem C16_nums384e_same : nums384e_32.P.b = nums384w_32.P.b ∧ nums384e_32.P.n = nums384w_32.P.n ∧ nums384e_32.P.modbits = nums384w_32.P.modbits ∧
    nums384e_32.P.sh = nums384w_32.P.sh ∧ nums384e_32.P.md = nums384w_32.P.md ∧ nums384e_32.P.mc = nums384w_32.P.mc ∧
    nums384e_32.P.modtype = nums384w_32.P.modtype := by decide +kernel

/-! ### instances -/

/-- conditions of `PMConsts` and `PlainExp` beyond `Consts` -/
def pmB {C : Nat} (r : Rom C) : Bool :=
  decide (r.P.modtype = .PseudoMersenne ∧ 0 < r.P.mc.toInt ∧ (r.p : Int) = 2 ^ r.P.modbits - r.P.mc.toInt ∧
    r.P.mc.toInt * (2 ^ r.P.sh * r.P.mc.toInt + 1) + 2 ^ r.P.b ≤ 2 ^ (C - 2) ∧
    r.P.mc.toInt * (2 ^ r.P.sh * r.P.mc.toInt + 1) + 2 * r.P.mc.toInt ≤ 2 ^ r.P.modbits ∧ r.P.mc.toInt < 2 ^ r.P.b) &&
  (if r.P.mod8 = 5 then decide (r.p % 8 = 5 ∧ r.P.fpowExp = some ((r.p - 5) / 8)) else decide (r.p % 4 = 3 ∧ r.P.fpowExp = some ((r.p - 3) / 4)))

theorem pmB_sound {C : Nat} {r : Rom C} (hc : Consts r.P r.p) (h : pmB r = true) : PMConsts r.P r.p ∧ PlainExp r.P r.p := by
  unfold pmB at h
  rw [Bool.and_eq_true] at h
  obtain ⟨h1, h2⟩ := h
  obtain ⟨a, b, c, d, e, f⟩ := of_decide_eq_true h1
  refine ⟨{ hc with type := a, mcpos := b, pval := c, word := d, small := e, mcb := f }, ?_⟩
  unfold PlainExp
  split_ifs at h2 ⊢
  · exact of_decide_eq_true h2
  · exact of_decide_eq_true h2

/-- The pseudo-Mersenne hypotheses hold for every bundled 64-bit ROM file of that type … -/
theorem C16_pm64 (r : Rom 64) (hr : r ∈ all64) (ht : r.P.modtype = .PseudoMersenne) : PMConsts r.P r.p ∧ PlainExp r.P r.p := by
  refine pmB_sound (C55_rom64 r hr).consts ?_
  have : all64.all (fun r => !(decide (r.P.modtype = .PseudoMersenne)) || pmB r) = true := by decide +kernel
  have := List.all_eq_true.1 this r hr
  simpa [ht] using this

/-- … and for every 32-bit one except the two over `2^384 - 317`. -/
theorem C16_pm32 (r : Rom 32) (hr : r ∈ all32) (ht : r.P.modtype = .PseudoMersenne) (h384 : r.p ≠ 2 ^ 384 - 317) :
    PMConsts r.P r.p ∧ PlainExp r.P r.p := by
  refine pmB_sound (C55_rom32 r hr).consts ?_
  have : all32.all (fun r => !(decide (r.P.modtype = .PseudoMersenne ∧ r.p ≠ 2 ^ 384 - 317)) || pmB r) = true := by decide +kernel
  have := List.all_eq_true.1 this r hr
  simpa [ht, h384] using this


/-- the conditions of `sqrtZero_of` -/
def sqrtZeroB {C : Nat} (P : Params C) : Bool :=
  let w := reduce P (mul P (zero2 P) { zero2 P with x := Big.dec P.b (Big.zero C P.n) 1 })
  P.plain && decide (4 ≤ P.fexcess) && decide ((reduce P (zero P)).x = (zero P).x ∧ (reduce P (zero P)).xes = 1) &&
  decide ((mul P (zero P) (zero P)).x = Big.zero C P.n ∧ (sqr P (zero P)).x = Big.zero C P.n ∧ Big.shl P.b 1 (Big.zero C P.n) = Big.zero C P.n) &&
  decide (limbsVal P.b w.x = 0 ∧ w.x.length = P.n ∧ Digits P.b w.x ∧ w.xes = 1)

theorem sqrtZeroB_sound {C : Nat} {P : Params C} (h5 : P.mod8 = 5) (h : sqrtZeroB P = true) : SqrtZero P := by
  simp only [sqrtZeroB, Bool.and_eq_true, decide_eq_true_eq] at h
  obtain ⟨⟨⟨⟨h1, h2⟩, h3, h4⟩, h6, h7, h8⟩, h9⟩ := h
  refine sqrtZero_of h1 h5 h2 ?_ ?_ ?_ h8 rfl h9
  · cases h' : reduce P (zero P); rw [h'] at h3 h4; simp only at h3 h4; rw [h3, h4]; rfl
  · cases h' : mul P (zero P) (zero P)
    have := mul_xes (P := P) (zero P) (zero P)
    rw [h'] at h6 this; simp only at h6 this; rw [h6, this]; rfl
  · cases h' : sqr P (zero P)
    have := sqr_xes (P := P) (zero P)
    rw [h'] at h7 this; simp only at h7 this; rw [h7, this]; rfl

/-- `MOD8 == 5`: the square root of zero is zero, 64-bit … -/
theorem C16_sqrt_zero64 (r : Rom 64) (hr : r ∈ all64) (h5 : r.P.mod8 = 5) : SqrtZero r.P := by
  have : all64.all (fun r => !(decide (r.P.mod8 = 5)) || sqrtZeroB r.P) = true := by decide +kernel
  have := List.all_eq_true.1 this r hr
  exact sqrtZeroB_sound h5 (by simpa [h5] using this)

/-- … and 32-bit. -/
theorem C16_sqrt_zero32 (r : Rom 32) (hr : r ∈ all32) (h5 : r.P.mod8 = 5) : SqrtZero r.P := by
  have : all32.all (fun r => !(decide (r.P.mod8 = 5)) || sqrtZeroB r.P) = true := by decide +kernel
  have := List.all_eq_true.1 this r hr
  exact sqrtZeroB_sound h5 (by simpa [h5] using this)

/-- conditions of `GMConsts`, `GMBound` and `PlainExp` beyond `Consts` -/
def gmB {C : Nat} (r : Rom C) (B : Nat) : Bool :=
  decide (r.P.modtype = .GeneralisedMersenne ∧ r.P.modbits = 448 ∧ (r.p : Int) = 2 ^ r.P.modbits - 2 ^ 224 - 1 ∧ 1 < 224 / r.P.b ∧ 224 / r.P.b < r.P.n - 1 ∧
    (2 * B + 4) * 2 ^ 448 ≤ 2 ^ (r.P.b * r.P.n) ∧ (2 * B + 4) * (1 + 2 ^ (224 % r.P.b)) + 2 * 2 ^ r.P.b + 2 ^ (C - 1 - r.P.b) ≤ 2 ^ (C - 1) ∧
    r.P.b + r.P.sh < r.P.modbits ∧ r.P.mod8 ≠ 5 ∧ r.p % 4 = 3 ∧ r.P.fpowExp = some ((r.p - 3) / 4))

set_option exponentiation.threshold 500 in
theorem gmB_sound {C : Nat} {r : Rom C} {B : Nat} (hc : Consts r.P r.p) (h : gmB r B = true) : PlainB r.P r.p B ∧ PlainExp r.P r.p ∧ r.P.mod8 ≠ 5 := by
  obtain ⟨a, b, c, d1, d2, e, f, g, i, j, k⟩ := of_decide_eq_true h
  exact ⟨GMConsts.plainB { hc with type := a, mbits := b, pval := c, mid := ⟨d1, d2⟩ } ⟨e, f⟩ g, by unfold PlainExp; rw [if_neg i]; exact ⟨j, k⟩, i⟩

set_option exponentiation.threshold 500 in
/-- Goldilocks with 64-bit words: products of counters up to 3837 … -/
theorem C16_gm64 : PlainB goldilocks_64.P goldilocks_64.p 3837 ∧ PlainExp goldilocks_64.P goldilocks_64.p ∧ goldilocks_64.P.mod8 ≠ 5 :=
  gmB_sound (C55_rom64 _ (by simp [all64])).consts (by decide +kernel)

set_option exponentiation.threshold 500 in
/-- … with 32-bit words: up to 253. -/
theorem C16_gm32 : PlainB goldilocks_32.P goldilocks_32.p 253 ∧ PlainExp goldilocks_32.P goldilocks_32.p ∧ goldilocks_32.P.mod8 ≠ 5 :=
  gmB_sound (C55_rom32 _ (by simp [all32])).consts (by decide +kernel)

/-- C16 fails for Goldilocks beyond such a bound: after `k` doublings, all normalised, of `p - 2`, with counters `2^k` whose product does not
exceed `FEXCESS`, the square is a wrong residue: `carry << (224 % BASEBITS)` overflows the word in `modulo`.  64-bit: `k = 6`, … -/
theorem C16_goldilocks_overflow64 :
    (let r := goldilocks_64
     let P := r.P
     let a := (fun t => Fp.norm P (Fp.dbl P t))^[6] (Fp.newBig P (Big.dec P.b P.md 2))
     a.xes = 64 ∧ a.xes * a.xes ≤ P.fexcess ∧ limbsVal P.b a.x = 64 * (r.p - 2 : Int) ∧
     limbsVal P.b (Fp.sqr P a).x % r.p ≠ limbsVal P.b a.x ^ 2 % r.p ∧ limbsVal P.b (Fp.mul P a a).x % r.p ≠ limbsVal P.b a.x ^ 2 % r.p) := by decide +kernel

/-- … 32-bit: `k = 5`. -/
theorem C16_goldilocks_overflow32 :
    (let r := goldilocks_32
     let P := r.P
     let a := (fun t => Fp.norm P (Fp.dbl P t))^[5] (Fp.newBig P (Big.dec P.b P.md 2))
     a.xes = 32 ∧ a.xes * a.xes ≤ P.fexcess ∧ limbsVal P.b a.x = 32 * (r.p - 2 : Int) ∧
     limbsVal P.b (Fp.sqr P a).x % r.p ≠ limbsVal P.b a.x ^ 2 % r.p ∧ limbsVal P.b (Fp.mul P a a).x % r.p ≠ limbsVal P.b a.x ^ 2 % r.p) := by decide +kernel

theorem pm384_sound {r : Rom 32} (hr : r ∈ all32) (h : (Verif.Rom.constsB { r.P with sh := 12 } r.p && pmB { r with P := { r.P with sh := 12 } } &&
    decide (r.P.b + r.P.sh < r.P.modbits ∧ r.P.mod8 ≠ 5)) = true) :
    PlainB r.P r.p 4096 ∧ PlainExp r.P r.p ∧ r.P.mod8 ≠ 5 := by
  rw [Bool.and_eq_true, Bool.and_eq_true] at h
  obtain ⟨⟨h1, h2⟩, h3⟩ := h
  obtain ⟨h3, h4⟩ := of_decide_eq_true h3
  obtain ⟨c1, c2⟩ := pmB_sound (Verif.Rom.constsB_sound h1) h2
  exact ⟨PMConsts.plainB (s := 12) (C55_rom32 r hr).consts c1 h3, c2, h4⟩

/-- NUMS-384 with 32-bit words: products of counters up to 4096. -/
theorem C16_nums384_32 (r : Rom 32) (hr : r ∈ all32) (h384 : r.p = 2 ^ 384 - 317) : PlainB r.P r.p 4096 ∧ PlainExp r.P r.p ∧ r.P.mod8 ≠ 5 := by
  refine pm384_sound hr ?_
  have : all32.all (fun r => !(decide (r.p = 2 ^ 384 - 317)) || (Verif.Rom.constsB { r.P with sh := 12 } r.p && pmB { r with P := { r.P with sh := 12 } } &&
    decide (r.P.b + r.P.sh < r.P.modbits ∧ r.P.mod8 ≠ 5))) = true := by decide +kernel
  have := List.all_eq_true.1 this r hr
  simpa [h384] using this

/-- The hypothesis of the theorems above holds for every bundled Montgomery-form ROM file, 64-bit … -/
theorem C16_rom64 (r : Rom 64) (hr : r ∈ all64) (ht : r.P.modtype = .NotSpecial) : MontConsts r.P r.p := by
  have := (C55_rom64 r hr).modulus
  unfold Rom.modulusOk at this
  rw [ht] at this
  exact this

/-- … and 32-bit. -/
theorem C16_rom32 (r : Rom 32) (hr : r ∈ all32) (ht : r.P.modtype = .NotSpecial) : MontConsts r.P r.p := by
  have := (C55_rom32 r hr).modulus
  unfold Rom.modulusOk at this
  rw [ht] at this
  exact this

example : (all64.filter (fun r => r.P.modtype = .NotSpecial)).length = 14 := by decide
example : (all32.filter (fun r => r.P.modtype = .NotSpecial)).length = 13 := by decide

instance bls381_fact : Fact (Nat.Prime bls381_64.p) := ⟨bls381_p_prime⟩
instance bls381_fact32 : Fact (Nat.Prime bls381_32.p) := ⟨bls381_p_prime⟩

theorem bls381_mont : MontConsts bls381_64.P bls381_64.p := C16_rom64 _ (by simp [all64]) rfl
theorem bls381_mont32 : MontConsts bls381_32.P bls381_32.p := C16_rom32 _ (by simp [all32]) rfl

/-- a concrete history: `(1 + 1 - 5 + 1) * (7 - 1/3)`, with three lazy operations before a multiplication -/
example : ∃ a : Fp 64, History bls381_64.P bls381_64.p 0 1 a (((1 : ZMod bls381_64.p) + 1 - (5 : Nat) + 1) * ((7 : Nat) - ((3 : Nat) : ZMod bls381_64.p)⁻¹)) ∧ a.xes = 2 := by
  refine ⟨_, .mul (.norm (.add (.sub (.add .one .one ?_) (.newInt 5 ?_) ?_) .one ?_)) (.norm (.sub (.newInt 7 ?_) (.inverse ?_ (.newInt 3 ?_)) ?_)) ⟨by omega, le_rfl⟩ ⟨by omega, le_rfl⟩, rfl⟩
  all_goals first | (intro hh; exact absurd hh (by decide)) | decide +kernel | (unfold Room; decide +kernel)

/-- a history reaching `-0` whose encoding is `p` (C17) -/
example : ∃ a : Fp 64, History bls381_64.P bls381_64.p 0 1 a 0 ∧ limbsVal 58 (redc bls381_64.P a) = bls381_64.p :=
  ⟨_, by simpa using HistoryOn.norm (HistoryOn.neg (HistoryOn.zero (P := bls381_64.P) (p := bls381_64.p) (okm := fun _ _ => True) (okp := fun _ => True)) (by unfold Room; decide +kernel)),
    C17_minus_zero.1⟩

/-- a Goldilocks history within the bound: `(2·2·(p-2))^2 / 3`, counters `4 · 4 ≤ 3837` -/
example : ∃ (hp : Fact (Nat.Prime goldilocks_64.p)) (a : Fp 64) (v : ZMod goldilocks_64.p), HistoryB goldilocks_64.P goldilocks_64.p 3837 0 1 a v ∧ a.xes = 2 := by
  haveI : Fact (Nat.Prime goldilocks_64.p) := ⟨goldilocks_p_prime⟩
  refine ⟨inferInstance, _, _, .mul (.sqr (.norm (.dbl (.norm (.dbl (.neg (.newInt 2 ?_) ?_) ?_)) ?_)) ⟨by omega, le_rfl⟩ ?_)
    (.inverse (fun _ => ⟨rfl, rfl⟩) (.newInt 3 ?_) ?_) ⟨by omega, le_rfl⟩ ⟨by omega, le_rfl⟩ ?_, rfl⟩
  all_goals first | decide +kernel | (unfold Room; decide +kernel) | (unfold MulBound; decide +kernel)

end Verif.Props
