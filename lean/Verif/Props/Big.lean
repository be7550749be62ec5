import Verif.Big.Inv2
import Verif.Big.Jacobi
import Verif.Big.Monty
import Verif.Big.Rand
import Mathlib.Data.Nat.Size
/-
Property theorems for the multi-precision integers `Big` / `DBig` (C01 – C15).
Model: `Verif/Big/Model.lean`.  Vocabulary: `Verif/Spec/Limbs.lean` (`limbsVal`, `Normal`,
`LimbsWithin`, `Rep`, `Digits`, `Ok`, `Fits`, `cap`), `Verif/Spec/Rand.lean`.

`C` is the word size, `b` is BASEBITS, `n` the number of limbs; every statement is for all of them,
subject to `Ok C b` (and `Fits C b n` where products are accumulated), which every ROM file meets
(`rom_parameters_ok`).  `Rep b n w V` reads "the limb array `w` has `n` limbs, is normalised and
denotes the integer `V`".
-/
namespace Verif.Props
open Verif.Big Verif
open Spec (limbsVal Normal LimbsWithin draw bitsLSB bitsNat)

variable {C b n : Nat}

/-- (word bits, MODBYTES, BASEBITS) of all files in `src/roms`, except `rom_fp512bn_32.rs`, whose
MODBYTES = 32 contradicts its 18-limb constants (it cannot compile) -/
def romParams : List (Nat × Nat × Nat) :=
  [(32, 32, 28), (64, 32, 56), (32, 60, 29), (64, 60, 56), (32, 48, 29), (64, 48, 58), (32, 58, 28), (64, 58, 60),
   (32, 70, 29), (64, 70, 58), (32, 32, 29), (32, 52, 29), (64, 52, 60), (64, 64, 60), (32, 56, 29), (64, 56, 58),
   (32, 42, 29), (64, 42, 60), (64, 48, 56), (32, 66, 28), (64, 66, 60), (32, 64, 29), (32, 128, 28), (64, 128, 58),
   (32, 48, 28)]

/-- `NLEN = 1 + (8*MODBYTES - 1)/BASEBITS` (big.rs:38) -/
def nlen (modbytes basebits : Nat) : Nat := 1 + (8 * modbytes - 1) / basebits

/-- All parameter sets in the repository meet the side conditions used below. -/
theorem rom_parameters_ok : ∀ p ∈ romParams, Ok p.1 p.2.2 ∧ Fits p.1 p.2.2 (nlen p.2.1 p.2.2)
    ∧ 2 ≤ nlen p.2.1 p.2.2 ∧ 8 * p.2.1 ≤ p.2.2 * nlen p.2.1 p.2.2 := by
  have h : ∀ p ∈ romParams, (9 ≤ p.2.2 ∧ p.2.2 + 3 ≤ p.1 ∧ p.1 ≤ 2 * p.2.2) ∧ Fits p.1 p.2.2 (nlen p.2.1 p.2.2)
    ∧ 2 ≤ nlen p.2.1 p.2.2 ∧ 8 * p.2.1 ≤ p.2.2 * nlen p.2.1 p.2.2 := by decide +kernel
  intro p hp
  obtain ⟨⟨a, c, d⟩, e⟩ := h p hp
  exact ⟨⟨a, c, d⟩, e⟩

/-- the BLS12-381 field modulus in the 64-bit ROM (rom_bls381_64.rs), used in the examples -/
def p381 : Limbs 64 :=
  [0x1FEFFFFFFFFAAAB, 0x2FFFFAC54FFFFEE, 0x12A0F6B0F6241EA, 0x213CE144AFD9CC3, 0x2434BACD764774B, 0x25FF9A692C6E9ED,
   0x1A0111EA3]

def P381 : Nat := 0x1a0111ea397fe69a4b1ba7b6434bacd764774b84f38512bf6730d2a0f6b0f6241eabfffeb153ffffb9feffffffffaaab

theorem ok64 : Ok 64 58 := ⟨by norm_num, by norm_num, by norm_num⟩
theorem p381_rep : Rep 58 7 p381 P381 := ⟨rfl, by decide +kernel, by decide +kernel⟩

/-! ### C01 normalisation -/

/-- C01. `norm` keeps the denoted integer and yields the normal form, for every limb array whose
limbs (of either sign) leave two bits of headroom. -/
theorem C01_norm (ok : Ok C b) (w : Limbs C) (hne : w ≠ []) (hs : LimbsWithin (2 ^ (C - 2)) w) :
    (norm b w).length = w.length ∧ Normal b (norm b w) ∧ limbsVal b (norm b w) = limbsVal b w := by
  have := norm_rep ok w hne hs
  exact ⟨this.len, this.low, this.val⟩

/-- C01. Normal forms are canonical: same number of limbs and same integer means identical limbs. -/
theorem C01_canonical (x y : Limbs C) (hl : x.length = y.length) (hx : Normal b x) (hy : Normal b y) :
    x = y ↔ limbsVal b x = limbsVal b y :=
  ⟨fun h => by rw [h], normal_unique x y hl hx hy⟩

/-- a limb array with a negative and an overfull limb: `norm` repairs it -/
example : LimbsWithin 0x4000000000000000 ([-5, 0x1000000000000000, 3] : Limbs 64) ∧
    norm 58 ([-5, 0x1000000000000000, 3] : Limbs 64) = [0x3fffffffffffffb, 0x3ffffffffffffff, 6] := by
  refine ⟨?_, by decide +kernel⟩
  intro x hx
  simp only [List.mem_cons, List.not_mem_nil, or_false] at hx
  rcases hx with rfl | rfl | rfl <;> exact ⟨by decide +kernel, by decide +kernel⟩

/-! ### C02 comparison -/

/-- C02. On normalised arrays `comp` is the sign of the difference, i.e. -1, 0, 1 for smaller, equal,
larger. -/
theorem C02_comp {x y : Limbs C} {X Y : Int} (hx : Rep b n x X) (hy : Rep b n y Y) :
    (comp x y = -1 ↔ X < Y) ∧ (comp x y = 0 ↔ X = Y) ∧ (comp x y = 1 ↔ Y < X) := by
  rw [hx.comp hy]
  refine ⟨?_, ?_, ?_⟩
  · rw [Int.sign_eq_neg_one_iff_neg]; omega
  · rw [Int.sign_eq_zero_iff_zero]; omega
  · rw [Int.sign_eq_one_iff_pos]; omega

/-- C02. `==` and the `Ord` instance agree with the integers. -/
theorem C02_ord {x y : Limbs C} {X Y : Int} (hx : Rep b n x X) (hy : Rep b n y Y) :
    (beq x y = true ↔ X = Y) ∧ ord x y = compare X Y := by
  obtain ⟨h1, h2, h3⟩ := C02_comp hx hy
  constructor
  · simp [beq, h2]
  · unfold ord
    rcases lt_trichotomy X Y with h | h | h
    · rw [h1.2 h, compare_lt_iff_lt.2 h]; rfl
    · rw [h2.2 h, compare_eq_iff_eq.2 h]; rfl
    · rw [h3.2 h, compare_gt_iff_gt.2 h]; rfl

/-- C02. The tests for zero and one. -/
theorem C02_zero_one (ok : Ok C b) (hn : 0 < n) {x : Limbs C} {X : Int} (hx : Rep b n x X) :
    (iszilch x = true ↔ X = 0) ∧ (isunity x = true ↔ X = 1) :=
  ⟨hx.iszilch, hx.isunity ok hn⟩

example : comp p381 (newInt 64 7 5) = 1 ∧ ord (newInt 64 7 5) p381 = .lt := by decide +kernel

/-! ### C03 linear operations -/

/-- C03. `add`/`plus` and `sub`/`minus`/`rsub` are exact integer sum and difference as long as no limb
can leave the machine word. -/
theorem C03_add_sub (hC : 0 < C) (x y : Limbs C) (hl : x.length = y.length) (S T : Int)
    (hx : LimbsWithin S x) (hy : LimbsWithin T y) (hST : S + T < 2 ^ (C - 1)) :
    limbsVal b (add x y) = limbsVal b x + limbsVal b y ∧ LimbsWithin (S + T) (add x y) ∧
    limbsVal b (sub x y) = limbsVal b x - limbsVal b y ∧ LimbsWithin (S + T) (sub x y) ∧
    limbsVal b (rsub x y) = limbsVal b y - limbsVal b x := by
  refine ⟨add_val hC x y hl S T hx hy hST, add_within hC x y S T hx hy hST, sub_val hC x y hl S T hx hy hST,
    sub_within hC x y S T hx hy hST, ?_⟩
  rw [rsub_eq]
  exact sub_val hC y x hl.symm T S hy hx (by omega)

/-- C03. `dbl` and `imul` are exact multiples within the word. -/
theorem C03_multiples (hC : 0 < C) (w : Limbs C) (c T : Int) (hw : LimbsWithin T w) (hT : 2 * T < 2 ^ (C - 1))
    (hc : |c| * T < 2 ^ (C - 1)) (hc' : |c| < 2 ^ (C - 1)) :
    limbsVal b (dbl w) = 2 * limbsVal b w ∧ limbsVal b (imul w c) = c * limbsVal b w := by
  refine ⟨?_, (imul_val hC w c T hw hc hc').1⟩
  rw [dbl_eq_add, add_val hC w w rfl T T hw hw (by omega)]
  ring

/-- C03. `inc` and `dec`. -/
theorem C03_inc_dec (ok : Ok C b) (hn : 2 ≤ n) (w : Limbs C) {V : Int} (h : Rep b n (norm b w) V) (x : Int)
    (hx : |x| < 2 ^ (C - 2)) : limbsVal b (inc b w x) = V + x ∧ limbsVal b (dec b w x) = V - x := by
  refine inc_val ok (by omega) w h x hx ?_
  have h0 := h.low_nonneg hn
  have h1 : (at' (norm b w) 0).toInt < 2 ^ b := by
    have := h.low
    obtain ⟨u, v, r, e⟩ : ∃ u v r, norm b w = u :: v :: r := by
      have hl := h.len
      match hw : norm b w, hl with
      | [], hl => simp at hl; omega
      | [_], hl => simp at hl; omega
      | u :: v :: r, _ => exact ⟨u, v, r, rfl⟩
    rw [e] at this ⊢
    exact this.1.2
  rw [abs_of_nonneg h0]
  exact lt_of_lt_of_le h1 (pow_le_pow_right₀ (by norm_num) (by have := ok.hC; omega))

/-- C03. `pmul` returns the low limbs and the carry of the exact multiple. -/
theorem C03_pmul (ok : Ok C b) (c : Nat) (hc : c < 2 ^ b) (w : Limbs C) (hw : Digits b w) :
    (pmul b w c).1.length = w.length ∧ Digits b (pmul b w c).1 ∧
      limbsVal b (pmul b w c).1 + 2 ^ (b * w.length) * (pmul b w c).2.toInt = c * limbsVal b w := by
  have hcI : (BitVec.ofInt C (c : Int)).toInt = c := by
    have h0 : (0 : Int) ≤ 2 ^ (C - 1) := by positivity
    refine toInt_ofInt_of (by have := ok.hC; omega) (by omega) ?_
    have h1 : (c : Int) < 2 ^ b := by exact_mod_cast hc
    exact lt_of_lt_of_le h1 (pow_le_pow_right₀ (by norm_num) (by have := ok.hC; omega))
  have h := pmulGo_spec ok (BitVec.ofInt C (c : Int)) (by rw [hcI]; exact ⟨by positivity, by exact_mod_cast hc⟩) w hw 0
    (by simp)
  obtain ⟨h1, h2, _, h4⟩ := h
  rw [hcI] at h4
  refine ⟨h1, h2, ?_⟩
  simpa [pmul] using h4

/-- C03. `div3` returns quotient and remainder by 3. -/
theorem C03_div3 (ok : Ok C b) (w : Limbs C) {V : Int} (h : Rep b n (norm b w) V) (h0 : 0 ≤ V) :
    Rep b n (div3 b w).1 (V / 3) ∧ (div3 b w).2.toInt = V % 3 := by
  obtain ⟨a, c, d, e⟩ := div3Go_spec ok (norm b w) h.low (by rw [h.val]; exact h0)
  rw [h.val] at d e
  exact ⟨⟨by rw [div3, a, h.len], c, d⟩, e⟩

example : limbsVal 58 (add p381 p381) = 2 * P381 ∧ (div3 58 p381).2.toInt = P381 % 3 := by decide +kernel

/-! ### C04 – C06 products, squares, Montgomery reduction -/

/-- C04. The double-length product is exact, in spite of fixed-width accumulators. -/
theorem C04_mul (ok : Ok C b) {x y : Limbs C} (hx : Digits b x) (hy : Digits b y) (hl : x.length = y.length)
    (hn : 0 < x.length) (hfit : Fits C b x.length) :
    (mul b x y).length = 2 * x.length ∧ Digits b (mul b x y) ∧
      limbsVal b (mul b x y) = limbsVal b x * limbsVal b y :=
  mul_spec ok hx hy hl hn hfit

/-- C04. The single-length product `smul` is exact modulo `2^(BASEBITS·NLEN)`. -/
theorem C04_smul (ok : Ok C b) {x y : Limbs C} (hx : Digits b x) (hy : Digits b y) (hl : x.length = y.length) :
    (smul b x y).length = x.length ∧ Digits b (smul b x y) ∧
      limbsVal b (smul b x y) = limbsVal b x * limbsVal b y % 2 ^ (b * x.length) :=
  smul_spec ok hx hy hl

/-- C04. `muladd`: high and low digit of `x·y + c + r`. -/
theorem C04_muladd (ok : Ok C b) (x y c r : BitVec C) (hx : 0 ≤ x.toInt ∧ x.toInt < 2 ^ b)
    (hy : 0 ≤ y.toInt ∧ y.toInt < 2 ^ b) (hc : 0 ≤ c.toInt ∧ c.toInt < 2 ^ b) (hr : 0 ≤ r.toInt ∧ r.toInt < 2 ^ b) :
    (muladd b x y c r).1.toInt = (x.toInt * y.toInt + c.toInt + r.toInt) / 2 ^ b ∧
    (muladd b x y c r).2.toInt = (x.toInt * y.toInt + c.toInt + r.toInt) % 2 ^ b := by
  obtain ⟨_, h2, h3⟩ := muladd_spec ok x y c r hx hy hc hr
  rw [← h3]
  have hp : (0 : Int) < 2 ^ b := by positivity
  constructor
  · rw [Int.add_mul_ediv_left _ _ hp.ne', Int.ediv_eq_zero_of_lt h2.1 h2.2, zero_add]
  · rw [Int.add_mul_emod_self_left, Int.emod_eq_of_lt h2.1 h2.2]

/-- C05. Squaring is exact, for odd and even limb counts, hence the same limbs as multiplication. -/
theorem C05_sqr (ok : Ok C b) {x : Limbs C} (hx : Digits b x) (hn : 2 ≤ x.length) (hfit : Fits C b x.length) :
    limbsVal b (sqr b x) = limbsVal b x ^ 2 ∧ sqr b x = mul b x x := by
  obtain ⟨a1, a2, a3⟩ := sqr_spec ok hx hn hfit
  obtain ⟨b1, b2, b3⟩ := mul_spec ok hx hx rfl (by omega) hfit
  exact ⟨by rw [a3]; ring, normal_unique _ _ (by rw [a1, b1]) a2.normal b2.normal (by rw [a3, b3])⟩

/-- C06. Montgomery reduction of `0 ≤ d < m·R`, `R = 2^(BASEBITS·NLEN)`: the result `t` satisfies
`t·R ≡ d (mod m)` and `0 ≤ t < 2m`. -/
theorem C06_monty (ok : Ok C b) (hn : 2 ≤ n) (hfit : Fits C b n) {md d : Limbs C} {M D : Int} (mc : BitVec C)
    (hm : Rep b n md M) (hd : Rep b (2 * n) d D) (hM : 0 < M) (hM2 : 2 * M ≤ 2 ^ (b * n))
    (hmc : (M * mc.toInt + 1) % 2 ^ b = 0) (hD0 : 0 ≤ D) (hD : D < M * 2 ^ (b * n)) :
    ∃ T, Rep b n (monty b md mc d) T ∧ 0 ≤ T ∧ T < 2 * M ∧ T * 2 ^ (b * n) ≡ D [ZMOD M] := by
  have hR : (0 : Int) < 2 ^ (b * n) := by positivity
  have hbn : b * (2 * n) = b * n + b * n := by ring
  have dm := hm.digits hM.le (by omega)
  have dd := hd.digits hD0 (by
    rw [hbn, pow_add]
    exact lt_of_lt_of_le hD (mul_le_mul_of_nonneg_right (by omega) hR.le))
  have hmc' : ((at' md 0).toInt * mc.toInt + 1) % 2 ^ b = 0 := by
    have h0 := low_emod (b := b) (k := b) md le_rfl
    rw [hm.val] at h0
    rw [Int.add_emod, Int.mul_emod, h0, ← Int.mul_emod, ← Int.add_emod, hmc]
  obtain ⟨l, dg, v, t, hv0, hv1, e, ht⟩ := monty_spec ok hn dm dd mc hmc' hm.len (by rw [hd.len]) hfit
  rw [hd.val, hm.val] at e
  have ht0 : 0 ≤ t := by
    by_contra h
    have h1 : 2 ^ (b * n) * t < 0 := mul_neg_of_pos_of_neg hR (by omega)
    have h2 : 0 ≤ v * M := mul_nonneg hv0 hM.le
    omega
  have ht2 : t < 2 * M := by
    have h1 : v * M < 2 ^ (b * n) * M := mul_lt_mul_of_pos_right hv1 hM
    have h2 : 2 ^ (b * n) * t < 2 ^ (b * n) * (2 * M) := by rw [e]; linarith
    exact lt_of_mul_lt_mul_left h2 hR.le
  rw [Int.emod_eq_of_lt ht0 (by omega)] at ht
  refine ⟨t, ⟨l, dg.normal, ht⟩, ht0, ht2, ?_⟩
  have : t * 2 ^ (b * n) = D + M * v := by rw [mul_comm t, e]; ring
  rw [this]
  exact Int.ModEq.symm (by simp [Int.ModEq])

/-- the 64-bit BLS12-381 parameters meet the hypotheses of C06 (`MCONST` from rom_bls381_64.rs) -/
example : ((P381 : Int) * (0x1F3FFFCFFFCFFFD : BitVec 64).toInt + 1) % 2 ^ 58 = 0 ∧ 2 * (P381 : Int) ≤ 2 ^ (58 * 7) := by
  decide +kernel

/-! ### C07 shifts and bits -/

/-- C07. `shl`/`fshl` multiply and `shr`/`fshr` divide (rounding down) by `2^k`, for every shift count
for which the Rust code does not index out of bounds, including counts crossing limb borders. -/
theorem C07_shifts (ok : Ok C b) {w : Limbs C} {V : Int} (h : Rep b n w V) (h0 : 0 ≤ V) (h1 : V < 2 ^ (b * n)) (k : Nat)
    (hk : k / b < n) :
    Rep b n (shr b k w) (V / 2 ^ k) ∧ (V * 2 ^ k < 2 ^ (b * n) → Rep b n (shl b k w) (V * 2 ^ k)) :=
  ⟨shr_rep ok h hk h0 h1, fun h2 => shl_rep ok h hk h0 h2⟩

/-- C07. Fast shifts (`k ≤ BASEBITS`), also of negative numbers, with the bits shifted out. -/
theorem C07_fast_shifts (ok : Ok C b) (hn : 2 ≤ n) {w : Limbs C} {V : Int} (h : Rep b n w V) (k : Nat) (hk : k ≤ b) :
    Rep b n (fshr b k w) (V / 2 ^ k) ∧ (fshrOut k w).toInt = V % 2 ^ k ∧
    (∀ T, LimbsWithin T w → (T + 1) * 2 ^ k ≤ 2 ^ (C - 1) → Rep b n (fshl b k w) (2 ^ k * V)) := by
  refine ⟨fshr_rep ok hk h, by rw [fshrOut_spec ok hk w (h.ne_nil (by omega)), h.val], ?_⟩
  intro T hT hT2
  obtain ⟨a, c, d⟩ := fshl_spec ok hk w (by rw [h.len]; exact hn) h.low T hT hT2
  exact ⟨by rw [a, h.len], c, by rw [d, h.val]⟩

/-- C07. `mod2m`, `lastbits`, `parity`, `bit`. -/
theorem C07_bits (ok : Ok C b) (hn : 2 ≤ n) {w : Limbs C} {V : Int} (h : Rep b n w V) (h0 : 0 ≤ V) (h1 : V < 2 ^ (b * n))
    (k : Nat) (hk : k / b < n) :
    Rep b n (mod2m b k w) (V % 2 ^ k) ∧ bit b w k = V / 2 ^ k % 2 ∧ parity w = V % 2 ∧
      (k ≤ b → (lastbits b w k).toInt = V % 2 ^ k) := by
  have dg := h.digits h0 h1
  obtain ⟨a, c, d⟩ := mod2m_spec (m := k) ok dg (by rw [h.len]; exact hk)
  have hcg := cap_ge (n := n) ok (by omega)
  refine ⟨⟨by rw [a, h.len], c.normal, by rw [d, h.val]⟩, by rw [bit_spec ok dg k (by rw [h.len]; exact hk), h.val],
    h.parity ok hn, fun hkb => lastbits_spec ok hkb (h.norm ok (by omega) (by have := cap_pos C b n; omega) (by omega))⟩

/-- C07. `nbits` is the bit length. -/
theorem C07_nbits (ok : Ok C b) (w : Limbs C) {V : Nat} (h : Rep b n (norm b w) V) : nbits b w = Nat.size V := by
  obtain ⟨h1, h2, h3⟩ := nbits_spec ok w h (by positivity)
  have h1' : V < 2 ^ nbits b w := by exact_mod_cast h1
  by_cases hV : V = 0
  · rw [h3 (by exact_mod_cast hV), hV]; simp
  · obtain ⟨h4, h5⟩ := h2 (by exact_mod_cast hV)
    have h5' : 2 ^ (nbits b w - 1) ≤ V := by exact_mod_cast h5
    have a1 := Nat.size_le.2 h1'
    have a2 := Nat.lt_size.2 h5'
    omega

example : nbits 58 p381 = 381 ∧ bit 58 p381 380 = 1 ∧ Nat.size P381 = 381 ∧ limbsVal 58 (shr 58 100 p381) = P381 / 2 ^ 100 := by
  decide +kernel

/-- C07, limit of the claim: `shr` by `BASEBITS·NLEN` or more indexes out of bounds (panics). -/
theorem C07_shr_panics (hb : 0 < b) (w : Limbs C) (k : Nat) : shrPanics b k w = true ↔ b * w.length ≤ k := by
  simp only [shrPanics, decide_eq_true_eq]
  rw [Nat.le_div_iff_mul_le hb, mul_comm]

/-! ### C08 division -/

/-- C08. `rmod` terminates with `x mod m` and `div` with `⌊x/m⌋`, for every positive modulus and every
`x` that leaves one bit of room. -/
theorem C08_rmod_div (ok : Ok C b) (hn : 2 ≤ n) (fuel : Nat) (hf : 2 * (b * n) < fuel) {x m : Limbs C} {X M : Int}
    (hx : Rep b n (norm b x) X) (hm : Rep b n m M) (h0 : 0 ≤ X) (hX : 2 * X < cap C b n) (hM : 0 < M) :
    (∃ r, rmod b fuel x m = some r ∧ Rep b n r (X % M)) ∧ (∃ q, div b fuel x m = some q ∧ Rep b n q (X / M)) := by
  refine ⟨rmod_spec ok hn fuel hx hm h0 hX hM (fuel_cap ok hn hf.le hX hM), ?_⟩
  obtain ⟨f, rfl⟩ : ∃ f, fuel = f + 1 := ⟨fuel - 1, by omega⟩
  exact div_spec ok hn f hx hm h0 hX hM (fuel_cap ok hn (by omega) hX hM)

/-- C08. The same for double-length dividends (`DBig::dmod`, `DBig::div`). -/
theorem C08_dmod_ddiv (ok : Ok C b) (hn : 2 ≤ n) (fuel : Nat) (hf : 2 * (b * (2 * n)) < fuel) {d m : Limbs C} {X M : Int}
    (hd : Rep b (2 * n) (norm b d) X) (hm : Rep b n m M) (h0 : 0 ≤ X) (hX : 2 * X < cap C b (2 * n)) (hM : 0 < M)
    (hM2 : M ≤ 2 ^ (b * n)) :
    (∃ r, dmod b fuel d m = some r ∧ Rep b n r (X % M)) ∧
    (X / M < cap C b n → ∃ q, ddiv b fuel d m = some q ∧ Rep b n q (X / M)) := by
  refine ⟨dmod_spec ok (by omega) fuel hd hm h0 hX hM hM2 (fuel_cap ok (by omega) hf.le hX hM), fun hQ => ?_⟩
  obtain ⟨f, rfl⟩ : ∃ f, fuel = f + 1 := ⟨fuel - 1, by omega⟩
  exact ddiv_spec ok hn f hd hm h0 hX hM hQ (fuel_cap ok (by omega) (by omega) hX hM)

/-- C08, limit of the claim: reduction modulo 0 never terminates. -/
theorem C08_rmod_zero_diverges (ok : Ok C b) (hn : 2 ≤ n) {x m : Limbs C} {X : Int} (hx : Rep b n (norm b x) X)
    (hm : Rep b n m 0) (h0 : 0 ≤ X) : ∀ fuel, rmod b fuel x m = none :=
  fun fuel => rmod_zero_diverges ok hn fuel hx hm h0

/-- the hypotheses are met, e.g. with both operands near the BLS12-381 modulus -/
example : 2 * (P381 : Int) < cap 64 58 7 ∧ (rmod 58 1000 (newInt 64 7 1234567) (newInt 64 7 1000)).map (limbsVal 58) = some 567
    ∧ (div 58 1000 (newInt 64 7 1234567) (newInt 64 7 1000)).map (limbsVal 58) = some 1234 := by
  decide +kernel

/-! ### C09 modular arithmetic -/

/-- C09. `modmul` and `modsqr`. -/
theorem C09_modmul (ok : Ok C b) (hn : 2 ≤ n) (hfit : Fits C b n) (fuel : Nat) (hf : 2 * (b * (2 * n)) ≤ fuel)
    {x y m : Limbs C} {X Y M : Int} (hx : Rep b n (norm b x) X) (hy : Rep b n (norm b y) Y) (hm : Rep b n m M)
    (hX0 : 0 ≤ X) (hX : 2 * X < cap C b n) (hY0 : 0 ≤ Y) (hY : 2 * Y < cap C b n) (hM : 0 < M) (hM2 : 2 * M ≤ 2 ^ (b * n)) :
    (∃ r, modmul b fuel x y m = some r ∧ Rep b n r (X * Y % M)) ∧ (∃ r, modsqr b fuel x m = some r ∧ Rep b n r (X ^ 2 % M)) := by
  have hf' : 2 * (b * n) ≤ fuel := le_trans (by nlinarith) hf
  refine ⟨modmul_spec ok hn hfit fuel hf' hx hy hm hX0 hX hY0 hY hM hM2, ?_⟩
  rw [pow_two]
  exact modsqr_spec ok hn hfit fuel hf' hx hm hX0 hX hM hM2

/-- C09. `powmod` computes `x^e mod m` for every exponent and every modulus above 1. -/
theorem C09_powmod (ok : Ok C b) (hn : 2 ≤ n) (hfit : Fits C b n) (fuel : Nat) (hf : 2 * (b * n) ≤ fuel)
    {x e m : Limbs C} {X M : Int} {E : Nat} (hx : Rep b n (norm b x) X) (he : Rep b n (norm b e) E) (hm : Rep b n m M)
    (hX0 : 0 ≤ X) (hX : 2 * X < cap C b n) (hE : 2 * (E : Int) < cap C b n) (hM : 1 < M) (hM2 : 2 * M ≤ 2 ^ (b * n)) :
    ∃ r, powmod b fuel x e m = some r ∧ Rep b n r (X ^ E % M) :=
  powmod_spec ok hn hfit fuel hf hx he hm hX0 hX hE hM hM2

/-- C09. `modneg` returns `m - (x mod m)`: congruent to `-x`, and in `(0, m]`. -/
theorem C09_modneg (ok : Ok C b) (hn : 2 ≤ n) (fuel : Nat) (hf : 2 * (b * n) ≤ fuel) {x m : Limbs C} {X M : Int}
    (hx : Rep b n (norm b x) X) (hm : Rep b n m M) (hX0 : 0 ≤ X) (hX : 2 * X < cap C b n) (hM : 0 < M) (hM2 : M ≤ 2 ^ (b * n)) :
    ∃ r, modneg b fuel x m = some r ∧ limbsVal b r ≡ -X [ZMOD M] ∧ 0 < limbsVal b r ∧ limbsVal b r ≤ M := by
  obtain ⟨r, h1, _, h3, _⟩ := modneg_spec ok hn fuel hf hx hm hX0 hX hM hM2
  refine ⟨r, h1, ?_, ?_, ?_⟩
  · rw [h3]
    have : M - X % M ≡ 0 - X [ZMOD M] := Int.ModEq.sub (by simp [Int.ModEq]) (Int.mod_modEq X M)
    simpa using this
  · rw [h3]; have := Int.emod_lt_of_pos X hM; omega
  · rw [h3]; have := Int.emod_nonneg X hM.ne'; omega

/-- C09, limit: the representative of `-0` returned by `modneg` is `m`, not 0. -/
example : (modneg 58 1000 (newInt 64 7 0) (newInt 64 7 13)).map (limbsVal 58) = some 13 := by decide +kernel

example : (powmod 58 1000 (newInt 64 7 3) (newInt 64 7 20) (newInt 64 7 1009)).map (limbsVal 58) = some (3 ^ 20 % 1009) := by
  decide +kernel

/-! ### C10 – C11 inverse, Jacobi symbol -/

/-- C10. `invmodp` terminates exactly for units, and then returns the inverse in `[0,p)`. -/
theorem C10_invmodp (ok : Ok C b) (hn : 2 ≤ n) {x p : Limbs C} {X P : Int} (hx : Rep b n (norm b x) X)
    (hp : Rep b n p P) (hX0 : 0 ≤ X) (hX : 2 * X < cap C b n) (hP1 : 1 < P) (hP : P % 2 = 1) (hP2 : 2 * P ≤ 2 ^ (b * n)) :
    (Int.gcd X P = 1 → ∀ fuel, 2 * (b * n) ≤ fuel →
        ∃ y Y, invmodp b fuel x p = some y ∧ Rep b n y Y ∧ 0 ≤ Y ∧ Y < P ∧ X * Y % P = 1) ∧
    (Int.gcd X P ≠ 1 → ∀ fuel, invmodp b fuel x p = none) := by
  refine ⟨fun hco fuel hf => ?_, fun hco fuel => invmodp_diverges ok hn fuel hx hp hX0 hX hP1 hP hP2 hco⟩
  obtain ⟨y, hy⟩ := invmodp_some ok hn fuel hf hx hp hX0 hX hP1 hP hP2 hco
  obtain ⟨Y, h⟩ := invmodp_sound ok hn fuel hx hp hX0 hX hP1 hP hP2 hy
  exact ⟨y, Y, hy, h⟩

example : (invmodp 58 1000 (newInt 64 7 3) (newInt 64 7 1009)).map (limbsVal 58) = some 673 ∧ 3 * 673 % 1009 = 1 := by
  decide +kernel

/-- C11. For odd `p > 1` `jacobi` is the Jacobi symbol (Mathlib's `jacobiSym`), for other `p` it is 0. -/
theorem C11_jacobi (ok : Ok C b) (hn : 2 ≤ n) (fuel : Nat) (hf : 2 * (b * n) < fuel) {x p : Limbs C} {X P : Nat}
    (hx : Rep b n (norm b x) X) (hp : Rep b n p P) (hX : 2 * (X : Int) < cap C b n) (hP2 : 2 * (P : Int) < 2 ^ (b * n)) :
    jacobi b fuel x p = some (if P % 2 = 1 ∧ 1 < P then jacobiSym X P else 0) := by
  split
  · next h => exact jacobi_spec ok hn fuel hf hx hp hX h.2 h.1 hP2
  · next h => exact jacobi_even ok hn fuel hp (by omega)

/-- C11. For an odd prime `p` and `x` not divisible by `p`: the answer is 1 exactly for squares. -/
theorem C11_residuosity (ok : Ok C b) (hn : 2 ≤ n) (fuel : Nat) (hf : 2 * (b * n) < fuel) {x p : Limbs C} {X P : Nat}
    (hx : Rep b n (norm b x) X) (hp : Rep b n p P) (hX : 2 * (X : Int) < cap C b n) (hP2 : 2 * (P : Int) < 2 ^ (b * n))
    [hprime : Fact P.Prime] (hodd : P ≠ 2) (hX0 : (X : ZMod P) ≠ 0) :
    jacobi b fuel x p = some 1 ↔ IsSquare (X : ZMod P) := by
  have ho : P % 2 = 1 := (hprime.out.eq_two_or_odd).resolve_left hodd
  rw [C11_jacobi ok hn fuel hf hx hp hX hP2, if_pos ⟨ho, hprime.out.one_lt⟩, ← jacobiSym.legendreSym.to_jacobiSym]
  have h0 : ((X : Int) : ZMod P) ≠ 0 := by simpa using hX0
  have := legendreSym.eq_one_iff P h0
  simp only [Option.some.injEq, this, Int.cast_natCast]

example : jacobi 58 1000 (newInt 64 7 5) (newInt 64 7 11) = some 1 ∧ jacobi 58 1000 (newInt 64 7 2) (newInt 64 7 11) = some (-1) := by
  decide +kernel

/-! ### C12 byte encoding -/

/-- C12. `tobytes` writes the big-endian base-256 digits. -/
theorem C12_tobytes (ok : Ok C b) (modbytes : Nat) (w : Limbs C) {V : Nat} (h : Rep b n (norm b w) V) :
    toBytes b modbytes w = Spec.beBytes modbytes V := by
  rw [toBytes]
  exact toBytesGo_spec ok modbytes _ V h

/-- C12. `frombytes` reads big-endian, uses the first MODBYTES bytes only, and yields a normalised number. -/
theorem C12_frombytes (ok : Ok C b) (hn : 2 ≤ n) (modbytes : Nat) (hmb : 8 * modbytes ≤ b * n) (bytes : List (BitVec 8)) :
    Rep b n (fromBytes (C := C) b n modbytes bytes) (Spec.beNat (bytes.take modbytes)) :=
  fromBytes_rep ok hn modbytes hmb bytes

/-- C12. Reading what was written returns the same limbs. -/
theorem C12_roundtrip (ok : Ok C b) (hn : 2 ≤ n) (modbytes : Nat) (hmb : 8 * modbytes ≤ b * n) (w : Limbs C) {V : Nat}
    (h : Rep b n w V) (hV : V < 256 ^ modbytes) : fromBytes b n modbytes (toBytes b modbytes w) = w := by
  have hcg := cap_ge (n := n) ok (by omega)
  have hVi : (V : Int) < 2 ^ (b * n) := by
    have : V < 2 ^ (b * n) := lt_of_lt_of_le hV (by
      rw [show (256 : Nat) = 2 ^ 8 by norm_num, ← pow_mul]; exact Nat.pow_le_pow_right (by norm_num) hmb)
    exact_mod_cast this
  have hN := h.norm ok (by omega) (by have := cap_pos C b n; omega) (by omega)
  rw [C12_tobytes ok modbytes w hN]
  have h1 := C12_frombytes (C := C) ok hn modbytes hmb (Spec.beBytes modbytes V)
  rw [List.take_of_length_le (by simp), Spec.beNat_beBytes, Nat.mod_eq_of_lt hV] at h1
  exact normal_unique _ _ (by rw [h1.len, h.len]) h1.low h.low (by rw [h1.val, h.val])

/-- C12. Writing what was read returns the same bytes. -/
theorem C12_roundtrip_bytes (ok : Ok C b) (hn : 2 ≤ n) (modbytes : Nat) (hmb : 8 * modbytes ≤ b * n) (bytes : List (BitVec 8))
    (hl : bytes.length = modbytes) : toBytes b modbytes (fromBytes (C := C) b n modbytes bytes) = bytes := by
  have h1 := C12_frombytes (C := C) ok hn modbytes hmb bytes
  rw [List.take_of_length_le hl.le] at h1
  have hcg := cap_ge (n := n) ok (by omega)
  have hVi : (Spec.beNat bytes : Int) < 2 ^ (b * n) := by
    have := Spec.beNat_lt bytes
    rw [hl] at this
    have : Spec.beNat bytes < 2 ^ (b * n) := lt_of_lt_of_le this (by
      rw [show (256 : Nat) = 2 ^ 8 by norm_num, ← pow_mul]; exact Nat.pow_le_pow_right (by norm_num) hmb)
    exact_mod_cast this
  have hN := h1.norm ok (by omega) (by have := cap_pos C b n; omega) (by omega)
  rw [C12_tobytes ok modbytes _ hN, ← hl, Spec.beBytes_beNat]

example : fromBytes 58 7 48 (toBytes 58 48 p381) = p381 := by decide +kernel

/-! ### C13 constant-time selection -/

/-- C13. `cmove` and `cswap` on arbitrary limbs. -/
theorem C13_select (x g : Limbs C) (hl : x.length = g.length) :
    cmove x g 0 = x ∧ cmove x g 1 = g ∧ cswap x g 0 = (x, g) ∧ cswap x g 1 = (g, x) :=
  ⟨cmove_zero x g hl, cmove_one x g hl, cswap_zero x g hl, cswap_one x g hl⟩

example : cswap ([-1, 3] : Limbs 64) [7, -9] 1 = ([7, -9], [-1, 3]) := by decide +kernel

/-! ### C14 inversion modulo powers of two -/

/-- C14. `invmod256` inverts every odd byte modulo 256. -/
theorem C14_invmod256 (a : Nat) (ha : a < 256) (hodd : a % 2 = 1) :
    (invmod256 (BitVec.ofNat 64 a)).toNat * a % 256 = 1 := by
  obtain ⟨k, rfl⟩ : ∃ k, a = 2 * k + 1 := ⟨a / 2, by omega⟩
  exact (invmod256_all k (by omega)).2

/-- C14 (congruence part). `invmod2m` returns a number congruent to the inverse modulo
`2^BIGBITS`.  Missing from the full claim: the result need not lie in `[0, 2^BIGBITS)`, see
`C14_invmod2m_not_reduced`. -/
theorem C14_invmod2m (ok : Ok C b) (hn : 2 ≤ n) {BB : Nat} {a : Limbs C} {A : Int} (ha : Rep b n (norm b a) A)
    (hA0 : 0 ≤ A) (hA1 : A < 2 ^ (b * n)) (hodd : A % 2 = 1) (hBB : BB < b * n) (hBB8 : 8 < BB) :
    ∃ V, Rep b n (invmod2m b BB a) V ∧ V * A ≡ 1 [ZMOD 2 ^ BB] :=
  invmod2m_spec ok hn ha hA0 hA1 hodd hBB hBB8

/-- C14, refutation of the range part: for the 64-bit BLS12-381 parameters the "inverse" of 1 modulo
`2^384` is returned as `2^384 + 1`. -/
theorem C14_invmod2m_not_reduced : limbsVal 58 (invmod2m 58 384 (newInt 64 7 1)) = 2 ^ 384 + 1 := by decide +kernel

/-! ### C15 random numbers -/

/-- C15. `random` returns the number whose bits are the next MODBYTES bytes of the generator (low bit
of each byte first), below `2^(8·MODBYTES)`, and leaves the generator just after those bytes. -/
theorem C15_random {σ : Type} (ok : Ok C b) (hn : 2 ≤ n) {modbytes : Nat} (hmb : 8 * modbytes ≤ b * n)
    (next : σ → BitVec 8 × σ) (s : σ) :
    Rep b n (random (C := C) next b n modbytes s).1 (bitsNat (bitsLSB (draw next modbytes s).1) : Nat)
    ∧ (random (C := C) next b n modbytes s).2 = (draw next modbytes s).2
    ∧ bitsNat (bitsLSB (draw next modbytes s).1) < 2 ^ (8 * modbytes) :=
  random_spec ok hn hmb next s

/-- C15. `randomnum(q)` reads twice as many bits as `q` has and returns their value modulo `q`: a
number in `[0,q)` that depends on the generator's bytes only. -/
theorem C15_randomnum {σ : Type} (ok : Ok C b) (hn : 2 ≤ n) (fuel : Nat) (hf : 2 * (b * n) ≤ fuel) {q : Limbs C} {Q : Nat}
    (hq : Rep b n q Q) (hQ0 : 0 < Q) (hQ : 2 * (Q : Int) < 2 ^ (b * n)) (next : σ → BitVec 8 × σ) (s : σ) :
    ∃ r, randomnum next b fuel q s = (some r, (draw next ((2 * Nat.size Q + 7) / 8) s).2)
      ∧ Rep b n r ((bitsNat ((bitsLSB (draw next ((2 * Nat.size Q + 7) / 8) s).1).take (2 * Nat.size Q)) % Q : Nat) : Int)
      ∧ 0 ≤ limbsVal b r ∧ limbsVal b r < Q := by
  have hcg := cap_ge (n := n) ok (by omega)
  have hN := hq.norm ok (by omega) (by have := cap_pos C b n; omega) (by omega)
  obtain ⟨r, h1, h2⟩ := randomnum_spec ok hn fuel hf hq hN (by exact_mod_cast hQ0) hQ next s
  rw [C07_nbits ok q hN] at h1 h2
  have hpos : (0 : Int) < Q := by exact_mod_cast hQ0
  refine ⟨r, h1, by rw [Int.natCast_mod]; exact h2, ?_, ?_⟩
  · rw [h2.val]; exact Int.emod_nonneg _ hpos.ne'
  · rw [h2.val]; exact Int.emod_lt_of_pos _ hpos

/-- a counting generator as a concrete instance -/
example : (randomnum (fun s : BitVec 8 => (s, s + 1)) 58 1000 (newInt 64 7 1009) 3).1.map (limbsVal 58)
    = some (0b11000000001000001010 % 1009) := by decide +kernel

end Verif.Props
