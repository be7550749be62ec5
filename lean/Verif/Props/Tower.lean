import Verif.Tower.Hist
import Verif.Props.Fp
/-
C51: the extension-field towers (`fp2.rs`, `fp4.rs`, `fp12.rs`).
-/
namespace Verif.Props
open Verif.Big Verif.Fp Verif.Rom Verif.Tower Spec
set_option linter.unusedVariables false

attribute [local irreducible] Fp4.norm Fp4.neg Fp4.add Fp4.sub Fp4.dbl Fp4.reduce Fp4.mul Fp4.sqr Fp4.imul Fp4.div2 Fp4.inverse Fp4.conj Fp4.nconj Fp4.timesI Fp4.pmul Fp4.padd Fp4.zero
attribute [local irreducible] Fp2.norm Fp2.neg Fp2.add Fp2.sub Fp2.dbl Fp2.reduce Fp2.mul Fp2.sqr Fp2.imul Fp2.div2 Fp2.inverse Fp2.conj Fp2.timesI Fp2.divIp Fp2.divIp2 Fp2.zero

section ops
variable {C : Nat} {P : Params C} {p : Nat} [hp : Fact p.Prime]

/-! ### The rings are fields -/

/-- C51. Every non-zero element of `Z/p[i]` is invertible. -/
theorem C51_field2 (t : TowerPrime p) (v : F2 p) (hv : v ≠ 0) : ∃ w, v * w = 1 := ⟨_, mul_inv2 (by have := t.mod8; omega) hv⟩
/-- C51. Every non-zero element of `F2[w]/(w² - (1+i))` is invertible. -/
theorem C51_field4 (t : TowerPrime p) (v : F4 p) (hv : v ≠ 0) : ∃ w, v * w = 1 := ⟨_, mul_inv4 t.mod8 hv⟩
/-- C51. Every non-zero element of `F4[v]/(v³ - w)` is invertible. -/
theorem C51_field12 (t : TowerPrime p) (v : F12 p) (hv : v ≠ 0) : ∃ w, v * w = 1 := ⟨_, mul_inv12 t.mod8 t.noncube hv⟩

variable (h : TowerOk P p)
include h

/-! ### FP2 -/
section fp2
variable {K L : Nat} {x y : Fp2 C} {v w : F2 p}

/-- C51. `FP2::add` -/
theorem C51_fp2_add (hx : Std2 P p K x v) (hy : Std2 P p L y w) : val2 P p (Fp2.add P x y) = v + w ∧ Std2 P p (K + L) (Fp2.norm P (Fp2.add P x y)) (v + w) :=
  (add2_ok h (std2_iff.1 hx) (std2_iff.1 hy) (by simp) (by simp)).std h le_rfl

/-- C51. `FP2::neg` -/
theorem C51_fp2_neg (hx : Std2 P p K x v) : val2 P p (Fp2.neg P x) = -v ∧ Std2 P p (9 * K) (Fp2.norm P (Fp2.neg P x)) (-v) := by
  have k1 := (std2_iff.1 hx).re.pos
  refine (neg2_ok h (std2_iff.1 hx) (by simp [negLz]) (by simp [negLz])).std h ?_
  have k1 : 1 ≤ K := k1
  have := negE_bound (2 * K) (by omega)
  simp only [negLz]
  omega

/-- C51. `FP2::sub` -/
theorem C51_fp2_sub (hx : Std2 P p K x v) (hy : Std2 P p L y w) : val2 P p (Fp2.sub P x y) = v - w ∧ Std2 P p (K + 9 * L) (Fp2.norm P (Fp2.sub P x y)) (v - w) := by
  have k1 : 1 ≤ L := (std2_iff.1 hy).re.pos
  have n := neg2_ok h (std2_iff.1 hy) (by simp [negLz]) (by simp [negLz])
  have a := add2_ok h (std2_iff.1 hx) n (by simp [negLz]) (by simp [negLz])
  have := negE_bound (2 * L) (by omega)
  unfold Fp2.sub
  rw [sub_eq_add_neg]
  refine a.std h ?_
  simp only [negLz]
  omega

/-- C51. `FP2::mul`: `(a + bi)(c + di) = (ac - bd) + (ad + bc)i`, whatever the counters of the first factor -/
theorem C51_fp2_mul (hx : Std2 P p K x v) (hy : Std2 P p 131071 y w) : Std2 P p 3 (Fp2.mul P x y) (v * w) :=
  std2_iff.2 (mul2_ok h (std2_iff.1 hx) (std2_iff.1 hy) (by simp) (by simp) (by simp) (by simp) (by decide))

/-- C51. `FP2::sqr` -/
theorem C51_fp2_sqr (hx : Std2 P p K x v) : Std2 P p 2 (Fp2.sqr P x) (v ^ 2) := by
  have := (fp2_sound h).sqr (r := ⟨0, 1, 2⟩) (by simp [fp2Abs]) (std2_iff.1 hx)
  exact std2_iff.2 this

/-- C51. `FP2::inverse` returns the inverse of every non-zero element, -/
theorem C51_fp2_inverse (t : TowerPrime p) (hx : Std2 P p K x v) (hv : v ≠ 0) : v * val2 P p (Fp2.inverse P x) = 1 ∧ Std2 P p 2 (Fp2.inverse P x) (val2 P p (Fp2.inverse P x)) := by
  have i := inverse2_ok h (std2_iff.1 hx)
  rw [i.val]
  exact ⟨mul_inv2 (by have := t.mod8; omega) hv, std2_iff.2 i⟩

/-- and 0 of zero. -/
theorem C51_fp2_inverse_zero (hx : Std2 P p K x 0) : val2 P p (Fp2.inverse P x) = 0 := by
  have i := inverse2_ok h (std2_iff.1 hx)
  rw [i.val]
  ext <;> simp [inv2]

/-- C51. `FP2::conj` is complex conjugation, the `p`-th power. -/
theorem C51_fp2_conj (t : TowerPrime p) (hx : Std2 P p K x v) : Std2 P p (4 * K) (Fp2.conj P x) (v ^ p) := by
  have k1 : 1 ≤ K := (std2_iff.1 hx).re.pos
  have c := conj2_std h hx
  rw [← f2_pow (by have := t.mod8; omega)] at c
  have := negE_bound K k1
  exact std2_iff.2 (c.mono h ⟨le_rfl, le_rfl, by simp only [max_le_iff]; omega⟩ (by simp) (by simp))

/-- C51. `FP2::mul_ip` multiplies by `1 + i`, -/
theorem C51_fp2_mul_ip (hx : Std2 P p K x v) : val2 P p (Fp2.mulIp P x) = v * ⟨1, 1⟩ ∧ Std2 P p (5 * K) (Fp2.norm P (Fp2.mulIp P x)) (v * ⟨1, 1⟩) := by
  have k1 : 1 ≤ K := (std2_iff.1 hx).re.pos
  have := negE_bound K k1
  exact (mulIp_ok h (std2_iff.1 hx) (by simp) (by simp)).std h (by simp only; omega)

/-- and `FP2::div_ip` divides by it. -/
theorem C51_fp2_div_ip (hx : Std2 P p K x v) : val2 P p (Fp2.divIp P x) * ⟨1, 1⟩ = v ∧ Std2 P p (5 * K) (Fp2.norm P (Fp2.divIp P x)) (val2 P p (Fp2.divIp P x)) := by
  have k1 : 1 ≤ K := (std2_iff.1 hx).re.pos
  have := negE_bound K k1
  have d := (fp2_sound h).un (i := 5) (r := ⟨0, 1, K + negE K⟩) (by simp [fp2Abs]) (std2_iff.1 hx)
  have e : (Verif.Prog.ringOps (F2 p) (ext2 p)).un 5 v = v * ⟨2⁻¹, -2⁻¹⟩ := rfl
  have f : (fp2Ops P).un 5 x = Fp2.divIp P x := rfl
  rw [e, f] at d
  have d2 := d.std h (K := 5 * K) (by simp only; omega)
  rw [d2.1]
  refine ⟨?_, d2.2⟩
  have two0 : (2 : ZMod p) ≠ 0 := two_ne_zero' h.toConsts
  rw [mul_assoc]
  have : (⟨2⁻¹, -2⁻¹⟩ * ⟨1, 1⟩ : F2 p) = 1 := by
    ext
    · have r1 : (1 : F2 p).re = 1 := rfl
      rw [QuadraticAlgebra.re_mul, r1]
      field_simp
      norm_num
    · have r1 : (1 : F2 p).im = 0 := rfl
      rw [QuadraticAlgebra.im_mul, r1]
      simp
  rw [this, mul_one]

/-- C51. Comparisons of `FP2` -/
theorem C51_fp2_equals (hx : Std2 P p K x v) (hy : Std2 P p L y w) :
    (Fp2.equals P x y = true ↔ v = w) ∧ (Fp2.iszilch P x = true ↔ v = 0) ∧ (Fp2.isunity P x = true ↔ v = 1) := ⟨hx.eqv h hy, hx.zil h, hx.unity h⟩
end fp2

/-! ### FP4 -/
section fp4
variable {K L : Nat} {x y : Fp4 C} {v w : F4 p}

/-- C51. `FP4::add` -/
theorem C51_fp4_add (hx : Std4 P p K x v) (hy : Std4 P p L y w) : val4 P p (Fp4.add P x y) = v + w ∧ Std4 P p (K + L) (Fp4.norm P (Fp4.add P x y)) (v + w) :=
  (add4_ok h (r := ⟨⟨0, 2, K + L⟩, ⟨0, 2, K + L⟩⟩) (by simp [fp4Abs, fp2Abs, cap2, both, lv]) (std4_iff.1 hx) (std4_iff.1 hy)).std h ⟨le_rfl, le_rfl⟩

/-- C51. `FP4::neg` -/
theorem C51_fp4_neg (hx : Std4 P p K x v) : Std4 P p (19 * K) (Fp4.neg P x) (-v) := by
  have k1 : 1 ≤ K := (std4_iff.1 hx).re.re.pos
  have := negE_bound (2 * (K + K)) (by omega)
  refine std4_iff.2 ((neg4_ok h (std4_iff.1 hx)).mono h ⟨⟨⟨le_rfl, le_rfl, ?_⟩, ⟨le_rfl, le_rfl, ?_⟩⟩, by simp, by simp, by simp, by simp⟩)
  · simp only [negLz4, negLz]; omega
  · simp only [negLz4, negLz]; omega

/-- C51. `FP4::sub` -/
theorem C51_fp4_sub (hx : Std4 P p K x v) (hy : Std4 P p L y w) : val4 P p (Fp4.sub P x y) = v - w ∧ Std4 P p (K + 19 * L) (Fp4.norm P (Fp4.sub P x y)) (v - w) := by
  have n := C51_fp4_neg h hy
  unfold Fp4.sub
  rw [sub_eq_add_neg]
  exact C51_fp4_add h hx n

/-- C51. `FP4::mul`: `(a + bw)(c + dw) = (ac + (1+i)bd) + (ad + bc)w` -/
theorem C51_fp4_mul (hx : Std4 P p 65535 x v) (hy : Std4 P p 65535 y w) : Std4 P p 41 (Fp4.mul P x y) (v * w) :=
  std4_iff.2 ((mul4_ok h (r := ⟨⟨0, 1, 14⟩, ⟨0, 1, 41⟩⟩) (by decide +kernel) (std4_iff.1 hx) (std4_iff.1 hy)).mono h (by decide +kernel))

/-- C51. `FP4::sqr` -/
theorem C51_fp4_sqr (hx : Std4 P p 32767 x v) : Std4 P p 81 (Fp4.sqr P x) (v ^ 2) :=
  std4_iff.2 ((sqr4_ok h (r := ⟨⟨0, 1, 81⟩, ⟨0, 1, 6⟩⟩) (by decide +kernel) (std4_iff.1 hx)).mono h (by decide +kernel))

/-- C51. `FP4::inverse` returns the inverse of every non-zero element, -/
theorem C51_fp4_inverse (t : TowerPrime p) (hx : Std4 P p 131071 x v) (hv : v ≠ 0) :
    v * val4 P p (Fp4.inverse P x) = 1 ∧ Std4 P p 3 (Fp4.inverse P x) (val4 P p (Fp4.inverse P x)) := by
  have i := inverse4_ok h (r := ⟨⟨0, 1, 3⟩, ⟨0, 1, 3⟩⟩) (by decide +kernel) (std4_iff.1 hx)
  rw [i.val]
  exact ⟨mul_inv4 t.mod8 hv, std4_iff.2 i⟩

/-- and 0 of zero. -/
theorem C51_fp4_inverse_zero (hx : Std4 P p 131071 x 0) : val4 P p (Fp4.inverse P x) = 0 := by
  have i := inverse4_ok h (r := ⟨⟨0, 1, 3⟩, ⟨0, 1, 3⟩⟩) (by decide +kernel) (std4_iff.1 hx)
  rw [i.val]
  ext1 <;> simp [inv4]

/-- C51. `FP4::conj`: `a + bw ↦ a - bw`, and `FP4::nconj` its negative -/
theorem C51_fp4_conj (hx : Std4 P p 16383 x v) : Std4 P p 81919 (Fp4.conj P x) ⟨v.re, -v.im⟩ ∧ Std4 P p 81919 (Fp4.nconj P x) ⟨-v.re, v.im⟩ :=
  ⟨std4_iff.2 ((conj4_ok h (r := ⟨⟨0, 1, 16383⟩, ⟨0, 1, 81919⟩⟩) (by decide +kernel) (std4_iff.1 hx)).mono h (by decide +kernel)),
   std4_iff.2 ((nconj4_ok h (r := ⟨⟨0, 1, 81919⟩, ⟨0, 1, 16383⟩⟩) (by decide +kernel) (std4_iff.1 hx)).mono h (by decide +kernel))⟩

/-- C51. `FP4::times_i` multiplies by `w`. -/
theorem C51_fp4_times_i (hx : Std4 P p 20000 x v) : Std4 P p 131071 (Fp4.timesI P x) (v * ⟨0, 1⟩) :=
  std4_iff.2 ((timesI4_ok h (r := ⟨⟨0, 1, 85536⟩, ⟨0, 1, 20000⟩⟩) (by decide +kernel) (std4_iff.1 hx)).mono h (by decide +kernel))

/-- C51. Comparisons of `FP4` -/
theorem C51_fp4_equals (hx : Std4 P p K x v) (hy : Std4 P p L y w) :
    (Fp4.equals P x y = true ↔ v = w) ∧ (Fp4.iszilch P x = true ↔ v = 0) ∧ (Fp4.isunity P x = true ↔ v = 1) := ⟨hx.eqv h hy, hx.zil h, hx.unity h⟩
end fp4

/-! ### FP12 -/
section fp12
variable {mt : Bool} {f : Fp2 C} {K L : Nat} {x y : Fp12 C} {v w : F12 p}

/-- C51. Whatever sequence of products (`mul`, the sparse `ssmul`), squares (`sqr`, the cyclotomic `usqr`), inverses, conjugates (`v^(p^6)`),
Frobenius maps (`v^p`) and reductions produced an `FP12` value, it denotes the result of the same operations in `F12`, and its sparsity tag
is truthful. -/
theorem C51_fp12_history (t : TowerPrime p) (hf : Std2 P p 3 f (⟨1, 1⟩ ^ ((p - 1) / 6))) (hx : Hist12 P p mt f K x v) :
    val12 P p x = v ∧ Tagged mt x.stype v := by
  have i := hist12_inv h t hf hx
  exact ⟨i.1.val, i.2⟩

/-- C51. Comparisons of `FP12` -/
theorem C51_fp12_equals (t : TowerPrime p) (hf : Std2 P p 3 f (⟨1, 1⟩ ^ ((p - 1) / 6))) (hx : Hist12 P p mt f K x v) (hy : Hist12 P p mt f L y w) :
    (Fp12.equals P x y = true ↔ v = w) ∧ (Fp12.iszilch P x = true ↔ v = 0) ∧ (Fp12.isunity P x = true ↔ v = 1) := by
  have i := (hist12_inv h t hf hx).1
  have j := (hist12_inv h t hf hy).1
  exact ⟨i.eqv h j, i.zil h, i.unity h⟩

/-- C51. `FP12::inverse` returns the inverse of every non-zero element, -/
theorem C51_fp12_inverse (t : TowerPrime p) (hx : Std12 P p 2800 x v) (hv : v ≠ 0) :
    v * val12 P p (Fp12.inverse P x) = 1 ∧ Std12 P p 41 (Fp12.inverse P x) (val12 P p (Fp12.inverse P x)) := by
  obtain ⟨w, hw⟩ := C51_field12 t v hv
  have i := inverse12_eq h t hx hw
  rw [i.val]
  exact ⟨hw, i⟩

/-- and 0 of zero. -/
theorem C51_fp12_inverse_zero (hx : Std12 P p 2800 x 0) : val12 P p (Fp12.inverse P x) = 0 := by
  have i := inverse12_ok h hx
  rw [i.val]
  ext1 <;> simp [adj12]

/-- C51. In the cyclotomic subgroup `FP12::conj` is inversion. -/
theorem C51_fp12_unitary (t : TowerPrime p) (hx : Std12 P p 2800 x v) (hv : v ^ (p ^ 4 - p ^ 2 + 1) = 1) : v * val12 P p (Fp12.conj P x) = 1 := by
  have hp0 := hp.out.pos
  have c := conj12_ok h (mt := true) (x := ⟨x.a, x.b, x.c, 4⟩) hx (Or.inr (Or.inr (Or.inr (Or.inr rfl))))
  have e : val12 P p (Fp12.conj P ⟨x.a, x.b, x.c, 4⟩) = val12 P p (Fp12.conj P x) := rfl
  rw [← e, c.1.val, ← f12_pow6 t.mod8 t.mod6 t.two, ← pow_succ']
  have : p ^ 6 + 1 = (p ^ 4 - p ^ 2 + 1) * (p ^ 2 + 1) := by
    have h24 : p ^ 2 ≤ p ^ 4 := Nat.pow_le_pow_right hp0 (by norm_num)
    zify [h24]
    ring
  rw [this, pow_mul, hv, one_pow]
end fp12

end ops

/-! ### The bundled pairing curves -/

/-- the prime and the Frobenius constant of a curve, as a computation -/
def towerB {C : Nat} (r : PairRom C) : Bool :=
  r.rom.p % 8 == 3 && r.rom.p % 6 == 1 && powMod r.rom.p (r.rom.p.log2 + 1) 2 ((r.rom.p - 1) / 3) != 1 &&
  isFrob r.rom.p (limbsVal r.rom.P.b r.fra).toNat (limbsVal r.rom.P.b r.frb).toNat

/-- limbs within digits -/
def repB {C : Nat} (P : Params C) (p : Nat) (x : Limbs C) : Bool :=
  x.length == P.n && x.all (fun z => 0 ≤ z.toInt && z.toInt < 2 ^ P.b) && decide (limbsVal P.b x < p)

theorem repB_sound {C : Nat} {P : Params C} {p : Nat} {x : Limbs C} (h : repB P p x = true) :
    Rep P.b P.n x ((limbsVal P.b x).toNat : Nat) ∧ (limbsVal P.b x).toNat < p := by
  unfold repB at h
  simp only [Bool.and_eq_true, beq_iff_eq, List.all_eq_true, decide_eq_true_eq] at h
  obtain ⟨⟨h1, h2⟩, h3⟩ := h
  have hd : Digits P.b x := fun z hz => h2 z hz
  have h0 : 0 ≤ limbsVal P.b x := (hd.bounds).1
  have r := Rep.of_digits (b := P.b) hd
  rw [h1] at r
  refine ⟨?_, by omega⟩
  rw [Int.toNat_of_nonneg h0]
  exact r

theorem tower_sound {C : Nat} (r : PairRom C) [hp : Fact r.rom.p.Prime] (h : TowerOk r.rom.P r.rom.p) (ht : towerB r = true)
    (ha : repB r.rom.P r.rom.p r.fra = true) (hc : repB r.rom.P r.rom.p r.frb = true) :
    TowerPrime r.rom.p ∧ Std2 r.rom.P r.rom.p 3 (Fp2.newBigs r.rom.P r.fra r.frb) (⟨1, 1⟩ ^ ((r.rom.p - 1) / 6)) := by
  unfold towerB at ht
  simp only [Bool.and_eq_true, beq_iff_eq, bne_iff_ne] at ht
  obtain ⟨⟨⟨h8, h6⟩, h2⟩, hf⟩ := ht
  refine ⟨⟨h8, h6, ?_⟩, ?_⟩
  · intro e
    apply h2
    rw [powMod_eq _ _ _ _ (by have := @Nat.lt_log2_self r.rom.p; omega)]
    have : ((2 ^ ((r.rom.p - 1) / 3) : Nat) : ZMod r.rom.p) = ((1 : Nat) : ZMod r.rom.p) := by push_cast; exact e
    rw [ZMod.natCast_eq_natCast_iff, Nat.ModEq] at this
    rw [this]
    exact Nat.mod_eq_of_lt hp.out.one_lt
  · rw [← isFrob_sound hf]
    obtain ⟨a1, a2⟩ := repB_sound ha
    obtain ⟨b1, b2⟩ := repB_sound hc
    exact (std2_newBigs h a1 a2 b1 b2).mono h (by norm_num)
/-- everything the theorems above ask of a curve -/
structure C51_Curve {C : Nat} (r : PairRom C) : Prop where
  tower : TowerOk r.rom.P r.rom.p
  prime : TowerPrime r.rom.p
  frob : Std2 r.rom.P r.rom.p 3 (Fp2.newBigs r.rom.P r.fra r.frb) (⟨1, 1⟩ ^ ((r.rom.p - 1) / 6))

/-- the finite part of `C51_Curve` -/
def curveB {C : Nat} (r : PairRom C) : Bool := towerB r && repB r.rom.P r.rom.p r.fra && repB r.rom.P r.rom.p r.frb

theorem curve_sound {C : Nat} (r : PairRom C) [Fact r.rom.p.Prime] (hm : MontConsts r.rom.P r.rom.p) (hC : C ≤ 64) (hh : 2 ^ 19 * r.rom.p ≤ 2 ^ (r.rom.P.b * r.rom.P.n))
    (hb : curveB r = true) : C51_Curve r := by
  unfold curveB at hb
  simp only [Bool.and_eq_true] at hb
  have t : TowerOk r.rom.P r.rom.p := { hm with hC := hC, head := hh }
  have := tower_sound r t hb.1.1 hb.1.2 hb.2
  exact ⟨t, this.1, this.2⟩

/-- C51. The hypotheses hold for every bundled curve with embedding degree 12, 64-bit … -/
theorem C51_rom64 (r : PairRom 64) (hr : r ∈ pairs64) [Fact r.rom.p.Prime] : C51_Curve r := by
  have e : ∀ r ∈ pairs64, (r.rom.P.modtype = .NotSpecial ∧ 2 ^ 19 * r.rom.p ≤ 2 ^ (r.rom.P.b * r.rom.P.n)) ∧ curveB r = true := by
    intro r hr
    simp only [pairs64, List.mem_cons, List.not_mem_nil, or_false] at hr
    rcases hr with rfl | rfl | rfl | rfl | rfl | rfl | rfl <;> exact ⟨⟨rfl, by decide +kernel⟩, by decide +kernel⟩
  have m : ∀ r ∈ pairs64, r.rom ∈ all64 := by
    intro r hr
    simp only [pairs64, List.mem_cons, List.not_mem_nil, or_false] at hr
    rcases hr with rfl | rfl | rfl | rfl | rfl | rfl | rfl <;> simp [all64, bls381_64p, bls383_64p, bls461_64p, bn254_64p, bn254cx_64p, fp256bn_64p, fp512bn_64p]
  exact curve_sound r (C16_rom64 _ (m r hr) (e r hr).1.1) le_rfl (e r hr).1.2 (e r hr).2

/-- … and 32-bit, provided the limbs leave 19 bits above the modulus (all but BLS461). -/
theorem C51_rom32 (r : PairRom 32) (hr : r ∈ pairs32) (hh : 2 ^ 19 * r.rom.p ≤ 2 ^ (r.rom.P.b * r.rom.P.n)) [Fact r.rom.p.Prime] : C51_Curve r := by
  have e : ∀ r ∈ pairs32, r.rom.P.modtype = .NotSpecial ∧ curveB r = true := by
    intro r hr
    simp only [pairs32, List.mem_cons, List.not_mem_nil, or_false] at hr
    rcases hr with rfl | rfl | rfl | rfl | rfl | rfl <;> exact ⟨rfl, by decide +kernel⟩
  have m : ∀ r ∈ pairs32, r.rom ∈ all32 := by
    intro r hr
    simp only [pairs32, List.mem_cons, List.not_mem_nil, or_false] at hr
    rcases hr with rfl | rfl | rfl | rfl | rfl | rfl <;> simp [all32, bls381_32p, bls383_32p, bls461_32p, bn254_32p, bn254cx_32p, fp256bn_32p]
  exact curve_sound r (C16_rom32 _ (m r hr) (e r hr).1) (by norm_num) hh (e r hr).2

/-- BLS12-381, without hypotheses -/
theorem bls381_tower : C51_Curve bls381_64p := @C51_rom64 bls381_64p (by simp [pairs64]) bls381_fact
theorem bls381_tower32 : C51_Curve bls381_32p := @C51_rom32 bls381_32p (by simp [pairs32]) (by decide +kernel) bls381_fact32

/-- a concrete history on BLS12-381: `x = w + (2 + 3i) v + v²`-like coefficients, `(x · x^p)^(p^6) · x^{-1}`, reached without violating a bound -/
example : ∃ v : F12 bls381_64.p, v ≠ 0 ∧ v ≠ 1 ∧ ∃ K y w, v * w = 1 ∧
    Hist12 bls381_64.P bls381_64.p true (Fp2.newBigs bls381_64.P bls381_64p.fra bls381_64p.frb) K y ((v * v ^ bls381_64.p) ^ bls381_64.p ^ 6 * w) := by
  have r : ∀ n : Nat, n < 2 ^ 58 → Rep bls381_64.P.b bls381_64.P.n (Big.newInt 64 7 n) n := fun n hn => newInt_rep (C := 64) (b := 58) (n := 7) bls381_tower.tower.ok (by norm_num) (n : Int) (Int.natCast_nonneg n) (by exact_mod_cast hn)
  have c : ∀ n m : Nat, n < 2 ^ 58 → m < 2 ^ 58 → Coef2 bls381_64.P bls381_64.p (Fp2.newBigs bls381_64.P (Big.newInt 64 7 n) (Big.newInt 64 7 m)) ⟨n, m⟩ :=
    fun n m hn hm => .bigs (r n hn) (hn.trans (by decide +kernel)) (r m hm) (hm.trans (by decide +kernel))
  have hx := Hist12.coefs (mt := true) (f := Fp2.newBigs bls381_64.P bls381_64p.fra bls381_64p.frb) (c 0 0 (by norm_num) (by norm_num)) (c 1 0 (by norm_num) (by norm_num))
    (c 2 3 (by norm_num) (by norm_num)) (c 0 0 (by norm_num) (by norm_num)) (c 0 1 (by norm_num) (by norm_num)) (c 0 0 (by norm_num) (by norm_num))
  have v0 : ∀ v : F12 bls381_64.p, v.a.im.re = 1 → v ≠ 0 ∧ v ≠ 1 := by
    intro v hv
    constructor
    · rintro rfl
      exact zero_ne_one (α := ZMod bls381_64.p) hv
    · rintro rfl
      exact zero_ne_one (α := ZMod bls381_64.p) hv
  generalize hv : (⟨⟨⟨((0 : Nat) : ZMod bls381_64.p), ((0 : Nat) : ZMod bls381_64.p)⟩, ⟨((1 : Nat) : ZMod bls381_64.p), ((0 : Nat) : ZMod bls381_64.p)⟩⟩,
    ⟨⟨((2 : Nat) : ZMod bls381_64.p), ((3 : Nat) : ZMod bls381_64.p)⟩, ⟨((0 : Nat) : ZMod bls381_64.p), ((0 : Nat) : ZMod bls381_64.p)⟩⟩,
    ⟨⟨((0 : Nat) : ZMod bls381_64.p), ((1 : Nat) : ZMod bls381_64.p)⟩, ⟨((0 : Nat) : ZMod bls381_64.p), ((0 : Nat) : ZMod bls381_64.p)⟩⟩⟩ : F12 bls381_64.p) = v at hx
  obtain ⟨n0, n1⟩ := v0 v (by rw [← hv]; simp)
  obtain ⟨w, hw⟩ := C51_field12 (hp := bls381_fact) bls381_tower.prime v n0
  exact ⟨v, n0, n1, _, _, w, hw, .mul (.conj (.mul hx (.frob hx (by norm_num)) (by norm_num) (by norm_num)) (by norm_num)) (.inverse hx (by norm_num) hw) (by norm_num) (by norm_num)⟩
end Verif.Props
