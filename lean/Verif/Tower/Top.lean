import Verif.Tower.Frob
import Verif.Ecp.Codec
import Verif.Rom.Pair
/- Constructors and comparisons of the towers, and the operations of `FP2` and `FP4` on normalised elements. -/
namespace Verif.Tower
open Verif.Big Verif.Fp Verif.Prog Spec
set_option linter.unusedVariables false
set_option linter.unusedSectionVars false

variable {C : Nat} {P : Params C} {p : Nat} [hp : Fact p.Prime]

/-- `ξ^e` modulo `p`, on pairs; `k` bounds the number of bits of `e` -/
def powXi (N : Nat) : Nat → Nat × Nat → Nat → Nat × Nat
  | 0, _, _ => (1, 0)
  | k + 1, a, e => if e = 0 then (1, 0) else
      match powXi N k ((a.1 * a.1 + (N - a.2) * a.2) % N, (2 * a.1 * a.2) % N) (e / 2) with
      | (x, y) => if e % 2 = 1 then ((x * a.1 + (N - a.2) * y) % N, (x * a.2 + y * a.1) % N) else (x, y)

theorem powXi_eq (k : Nat) (a : Nat × Nat) (e : Nat) (he : e < 2 ^ k) (ha : a.2 ≤ p) :
    (⟨(powXi p k a e).1, (powXi p k a e).2⟩ : F2 p) = ⟨(a.1 : ZMod p), (a.2 : ZMod p)⟩ ^ e := by
  induction k generalizing a e with
  | zero =>
    have : e = 0 := by simpa using he
    subst this
    rw [pow_zero]
    ext
    · simp [powXi]; rfl
    · simp [powXi]; rfl
  | succ k ih =>
    simp only [powXi]
    by_cases h0 : e = 0
    · subst h0
      rw [if_pos rfl, pow_zero]
      ext
      · simp; rfl
      · simp; rfl
    · rw [if_neg h0]
      have hp0 := hp.out.pos
      have hi := ih ((a.1 * a.1 + (p - a.2) * a.2) % p, (2 * a.1 * a.2) % p) (e / 2) (by rw [pow_succ] at he; omega) (Nat.mod_lt _ hp0).le
      have hs : (⟨(((a.1 * a.1 + (p - a.2) * a.2) % p : Nat) : ZMod p), (((2 * a.1 * a.2) % p : Nat) : ZMod p)⟩ : F2 p) = ⟨(a.1 : ZMod p), (a.2 : ZMod p)⟩ ^ 2 := by
        rw [pow_two]
        ext
        · simp [ZMod.natCast_mod, Nat.cast_sub ha]
        · simp [ZMod.natCast_mod]; ring
      simp only at hi
      rw [hs, ← pow_mul] at hi
      generalize hz : powXi p k ((a.1 * a.1 + (p - a.2) * a.2) % p, (2 * a.1 * a.2) % p) (e / 2) = z at hi ⊢
      obtain ⟨x, y⟩ := z
      simp only at hi ⊢
      by_cases h1 : e % 2 = 1
      · rw [if_pos h1]
        have : e = 2 * (e / 2) + 1 := by omega
        conv_rhs => rw [this, pow_succ, ← hi]
        ext
        · simp [ZMod.natCast_mod, Nat.cast_sub ha]; ring
        · simp [ZMod.natCast_mod]
      · rw [if_neg h1]
        have : e = 2 * (e / 2) := by omega
        conv_rhs => rw [this, ← hi]

/-- The numbers `x + i y` are `(1+i)^((p-1)/6)`. -/
def isFrob (p x y : Nat) : Bool := powXi p (p.log2 + 1) (1, 1) ((p - 1) / 6) == (x, y)

theorem isFrob_sound {x y : Nat} (h : isFrob p x y = true) : (⟨(x : ZMod p), (y : ZMod p)⟩ : F2 p) = xi p ^ ((p - 1) / 6) := by
  have e := powXi_eq (p := p) (p.log2 + 1) (1, 1) ((p - 1) / 6) (by have := @Nat.lt_log2_self p; omega) hp.out.one_lt.le
  unfold isFrob at h
  rw [beq_iff_eq] at h
  rw [h] at e
  rw [e]
  simp

variable (h : TowerOk P p)
include h

theorem std_newBig {x : Limbs C} {X : Nat} (hx : Rep P.b P.n x X) (hX : X < p) : Std P p 2 (Fp.newBig P x) (X : ZMod p) := by
  refine ⟨.of_normed h.toConsts (h.arith.newBig_ok x X hx hX), ?_⟩
  have := h.plain
  unfold Fp.newBig Fp.nres
  simp [this]

/-- `FP2::new_bigs` -/
theorem std2_newBigs {x y : Limbs C} {X Y : Nat} (hx : Rep P.b P.n x X) (hX : X < p) (hy : Rep P.b P.n y Y) (hY : Y < p) :
    Std2 P p 2 (Fp2.newBigs P x y) ⟨X, Y⟩ := ⟨std_newBig h hx hX, std_newBig h hy hY⟩

theorem std_zero : Std P p 1 (Fp.zero P) 0 := ⟨(zero_ex h.toConsts).el, (zero_ex h.toConsts).xes⟩
theorem std_one : Std P p 2 (Fp.one P) 1 := ⟨.of_normed h.toConsts h.arith.one_ok, by
  have := h.plain
  unfold Fp.one Fp.nres
  simp [this]⟩
theorem std_int {c : Nat} (hc : (c : Int) < 2 ^ P.b) : Std P p 2 (Fp.newInt P c) (c : ZMod p) := ⟨.of_normed h.toConsts (h.arith.newInt_ok c hc), by
  have := h.plain
  unfold Fp.newInt Fp.nres
  simp [this]⟩

theorem Std.zil {K : Nat} {a : Fp C} {v : ZMod p} (ha : Std P p K a v) : Fp.iszilch P a = true ↔ v = 0 := by
  rw [iszilch_ok h.toConsts ha.1.valid ha.1.room, ha.1.res]
theorem Std.eqv {K L : Nat} {a c : Fp C} {v w : ZMod p} (ha : Std P p K a v) (hc : Std P p L c w) : Fp.equals P a c = true ↔ v = w := by
  rw [equals_ok h.toConsts ha.1.valid hc.1.valid ha.1.room hc.1.room, ha.1.res, hc.1.res]

theorem Std2.zil {K : Nat} {x : Fp2 C} {v : F2 p} (hx : Std2 P p K x v) : Fp2.iszilch P x = true ↔ v = 0 := by
  unfold Fp2.iszilch
  rw [Bool.and_eq_true, hx.1.zil h, hx.2.zil h]
  exact ⟨fun e => QuadraticAlgebra.ext e.1 e.2, fun e => by rw [e]; exact ⟨rfl, rfl⟩⟩
theorem Std2.eqv {K L : Nat} {x y : Fp2 C} {v w : F2 p} (hx : Std2 P p K x v) (hy : Std2 P p L y w) : Fp2.equals P x y = true ↔ v = w := by
  unfold Fp2.equals
  rw [Bool.and_eq_true, hx.1.eqv h hy.1, hx.2.eqv h hy.2]
  exact ⟨fun e => QuadraticAlgebra.ext e.1 e.2, fun e => by rw [e]; exact ⟨rfl, rfl⟩⟩
theorem Std4.zil {K : Nat} {x : Fp4 C} {v : F4 p} (hx : Std4 P p K x v) : Fp4.iszilch P x = true ↔ v = 0 := by
  unfold Fp4.iszilch
  rw [Bool.and_eq_true, hx.1.zil h, hx.2.zil h]
  exact ⟨fun e => QuadraticAlgebra.ext e.1 e.2, fun e => by rw [e]; exact ⟨rfl, rfl⟩⟩
theorem Std4.eqv {K L : Nat} {x y : Fp4 C} {v w : F4 p} (hx : Std4 P p K x v) (hy : Std4 P p L y w) : Fp4.equals P x y = true ↔ v = w := by
  unfold Fp4.equals
  rw [Bool.and_eq_true, hx.1.eqv h hy.1, hx.2.eqv h hy.2]
  exact ⟨fun e => QuadraticAlgebra.ext e.1 e.2, fun e => by rw [e]; exact ⟨rfl, rfl⟩⟩
theorem Std12.zil {K : Nat} {x : Fp12 C} {v : F12 p} (hx : Std12 P p K x v) : Fp12.iszilch P x = true ↔ v = 0 := by
  unfold Fp12.iszilch
  rw [Bool.and_eq_true, Bool.and_eq_true, hx.1.zil h, hx.2.1.zil h, hx.2.2.zil h]
  exact ⟨fun e => CubicAlgebra.ext e.1 e.2.1 e.2.2, fun e => by rw [e]; exact ⟨rfl, rfl, rfl⟩⟩
theorem Std12.eqv {K L : Nat} {x y : Fp12 C} {v w : F12 p} (hx : Std12 P p K x v) (hy : Std12 P p L y w) : Fp12.equals P x y = true ↔ v = w := by
  unfold Fp12.equals
  rw [Bool.and_eq_true, Bool.and_eq_true, hx.1.eqv h hy.1, hx.2.1.eqv h hy.2.1, hx.2.2.eqv h hy.2.2]
  exact ⟨fun e => CubicAlgebra.ext e.1 e.2.1 e.2.2, fun e => by rw [e]; exact ⟨rfl, rfl, rfl⟩⟩

theorem one_lt_b' : ((1 : Nat) : Int) < 2 ^ P.b := by simpa using (one_lt_pow₀ (by norm_num) (by have := h.ok.hb; omega) : (1 : Int) < 2 ^ P.b)

theorem std_int1 : Std P p 2 (Fp.newInt P 1) 1 := by
  have := std_int h (one_lt_b' h)
  rw [Nat.cast_one] at this
  rw [Nat.cast_one] at this
  exact this
theorem std2_zero : Std2 P p 1 (Fp2.zero P) 0 := ⟨std_zero h, std_zero h⟩
theorem std2_one : Std2 P p 2 (Fp2.one P) 1 := ⟨std_one h, (std_zero h).1, (std_zero h).2.trans (by norm_num)⟩
theorem std2_int {c : Nat} (hc : (c : Int) < 2 ^ P.b) : Std2 P p 2 (Fp2.newInt P c) ⟨(c : ZMod p), 0⟩ := ⟨std_int h hc, (std_zero h).1, (std_zero h).2.trans (by norm_num)⟩
theorem std2_int1 : Std2 P p 2 (Fp2.newInt P 1) 1 := by
  exact ⟨std_int1 h, (std_zero h).1, (std_zero h).2.trans (by norm_num)⟩
theorem std4_one : Std4 P p 2 (Fp4.one P) 1 := ⟨std2_one h, (std2_zero h).mono h (by norm_num)⟩
theorem std4_int {c : Nat} (hc : (c : Int) < 2 ^ P.b) : Std4 P p 2 (Fp4.newInt P c) ⟨⟨(c : ZMod p), 0⟩, 0⟩ := ⟨std2_int h hc, (std2_zero h).mono h (by norm_num)⟩
theorem std4_int1 : Std4 P p 2 (Fp4.newInt P 1) 1 := by
  exact ⟨std2_int1 h, (std2_zero h).mono h (by norm_num)⟩
theorem std12_zero : Std12 P p 1 (Fp12.zero P) 0 := ⟨zero4_std h le_rfl, zero4_std h le_rfl, zero4_std h le_rfl⟩
theorem std12_one : Std12 P p 2 (Fp12.one P) 1 := ⟨std4_one h, zero4_std h (by norm_num), zero4_std h (by norm_num)⟩

theorem Std2.unity {K : Nat} {x : Fp2 C} {v : F2 p} (hx : Std2 P p K x v) : Fp2.isunity P x = true ↔ v = 1 := by
  unfold Fp2.isunity
  rw [Bool.and_eq_true, hx.1.eqv h (std_int1 h), hx.2.zil h]
  exact ⟨fun e => QuadraticAlgebra.ext e.1 e.2, fun e => by rw [e]; exact ⟨rfl, rfl⟩⟩
theorem Std4.unity {K : Nat} {x : Fp4 C} {v : F4 p} (hx : Std4 P p K x v) : Fp4.isunity P x = true ↔ v = 1 := by
  unfold Fp4.isunity
  rw [Bool.and_eq_true, hx.1.eqv h (std2_int1 h), hx.2.zil h]
  exact ⟨fun e => QuadraticAlgebra.ext e.1 e.2, fun e => by rw [e]; exact ⟨rfl, rfl⟩⟩
theorem Std12.unity {K : Nat} {x : Fp12 C} {v : F12 p} (hx : Std12 P p K x v) : Fp12.isunity P x = true ↔ v = 1 := by
  unfold Fp12.isunity
  rw [Bool.and_eq_true, Bool.and_eq_true, hx.1.eqv h (std4_int1 h), hx.2.1.zil h, hx.2.2.zil h]
  exact ⟨fun e => CubicAlgebra.ext e.1 e.2.1 e.2.2, fun e => by rw [e]; exact ⟨rfl, rfl, rfl⟩⟩

omit h in
theorem Std2.val {K : Nat} {x : Fp2 C} {v : F2 p} (hx : Std2 P p K x v) : val2 P p x = v := QuadraticAlgebra.ext hx.1.1.res hx.2.1.res
omit h in
theorem Std4.val {K : Nat} {x : Fp4 C} {v : F4 p} (hx : Std4 P p K x v) : val4 P p x = v := QuadraticAlgebra.ext hx.1.val hx.2.val
omit h in
theorem Std12.val {K : Nat} {x : Fp12 C} {v : F12 p} (hx : Std12 P p K x v) : val12 P p x = v := CubicAlgebra.ext hx.1.val hx.2.1.val hx.2.2.val
omit h in
theorem Rel2.val {d : Lz} {x : Fp2 C} {v : F2 p} (hx : Rel2 P p d x v) : val2 P p x = v := QuadraticAlgebra.ext hx.re.el.res hx.im.el.res
omit h in
theorem Rel4.val {d : Lz4} {x : Fp4 C} {v : F4 p} (hx : Rel4 P p d x v) : val4 P p x = v := QuadraticAlgebra.ext hx.re.val hx.im.val

theorem Rel2.std {d : Lz} {K : Nat} {x : Fp2 C} {v : F2 p} (hx : Rel2 P p d x v) (hK : d.e ≤ K) : val2 P p x = v ∧ Std2 P p K (Fp2.norm P x) v :=
  ⟨hx.val, std2_iff.2 ((norm2_ok h hx).mono h ⟨le_rfl, le_rfl, hK⟩ (by simp) (by simp))⟩
theorem Rel4.std {d : Lz4} {K : Nat} {x : Fp4 C} {v : F4 p} (hx : Rel4 P p d x v) (hK : d.a.e ≤ K ∧ d.b.e ≤ K) : val4 P p x = v ∧ Std4 P p K (Fp4.norm P x) v :=
  ⟨hx.val, std4_iff.2 ((norm4_ok h hx).mono h ⟨⟨⟨le_rfl, le_rfl, hK.1⟩, ⟨le_rfl, le_rfl, hK.2⟩⟩, by simp, by simp, by simp, by simp⟩)⟩

omit h hp in
theorem negE_bound (e : Nat) (he : 1 ≤ e) : negE e ≤ 4 * e := by
  unfold negE
  split
  · omega
  · have : 2 ^ Nat.log2 (e - 1) ≤ e - 1 := Nat.log2_self_le (by omega)
    rw [pow_add]
    omega
end Verif.Tower
