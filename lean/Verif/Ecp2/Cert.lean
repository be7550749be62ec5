import Verif.Ecp2.Make
import Verif.Props.Tower
/- Certificates: the twists of the bundled curves have no point of order two and contain the generators. -/
namespace Verif.Ecp2
open Verif.Big Verif.Fp Verif.Rom Verif.Curve Verif.Tower Verif.Prog Verif.Props Spec WeierstrassCurve

set_option linter.unusedSectionVars false
variable {C : Nat}

/-- cubic residue test -/
theorem noncube {p : Nat} [hp : Fact p.Prime] (h3 : p % 3 = 1) {c : ZMod p} (h0 : c ≠ 0) (hne : c ^ ((p - 1) / 3) ≠ 1) (m : ZMod p) : m ^ 3 ≠ c := by
  intro h
  apply hne
  have hm : m ≠ 0 := by rintro rfl; exact h0 (by rw [← h]; ring)
  rw [← h, ← pow_mul]
  have : 3 * ((p - 1) / 3) = p - 1 := by have := hp.out.two_le; omega
  rw [this]
  exact ZMod.pow_card_sub_one_eq_one hm

/-- the cubic residue test, on numbers -/
def noncubeB (p c : Nat) : Bool :=
  let m := powMod p (p.log2 + 1) c ((p - 1) / 3)
  m != 1 && m != 0

theorem noncubeB_sound {p c : Nat} [hp : Fact p.Prime] (h3 : p % 3 = 1) (h : noncubeB p c = true) (m : ZMod p) : m ^ 3 ≠ c := by
  unfold noncubeB at h
  simp only [Bool.and_eq_true, bne_iff_ne, ne_eq] at h
  have hlog : (p - 1) / 3 < 2 ^ (p.log2 + 1) := by have := @Nat.lt_log2_self p; omega
  rw [powMod_eq _ _ _ _ hlog] at h
  have h2 := hp.out.two_le
  refine noncube h3 ?_ ?_ m
  · intro hc
    apply h.2
    have : p ∣ c := (ZMod.natCast_eq_zero_iff c p).mp hc
    exact Nat.mod_eq_zero_of_dvd (this.trans (dvd_pow_self c (by have := hp.out.two_le; omega)))
  · intro e
    apply h.1
    have : ((c ^ ((p - 1) / 3) : Nat) : ZMod p) = ((1 : Nat) : ZMod p) := by push_cast; exact e
    rw [ZMod.natCast_eq_natCast_iff, Nat.ModEq] at this
    rw [this]
    exact Nat.mod_eq_of_lt hp.out.one_lt

/-- arithmetic of pairs modulo `p` -/
def mulN2 (p : Nat) (x y : Nat × Nat) : Nat × Nat := ((x.1 * y.1 + (p - x.2 % p) * y.2) % p, (x.1 * y.2 + x.2 * y.1) % p)

def castN2 (p : Nat) (x : Nat × Nat) : F2 p := ⟨(x.1 : ZMod p), (x.2 : ZMod p)⟩

theorem castN2_mul {p : Nat} [hp : Fact p.Prime] (x y : Nat × Nat) : castN2 p (mulN2 p x y) = castN2 p x * castN2 p y := by
  have hs : (((p - x.2 % p : Nat)) : ZMod p) = -(x.2 : ZMod p) := by
    rw [Nat.cast_sub (Nat.mod_lt _ hp.out.pos).le]; simp
  unfold castN2 mulN2
  ext
  · simp only [QuadraticAlgebra.re_mul, ZMod.natCast_mod, Nat.cast_add, Nat.cast_mul, hs]; ring
  · simp only [QuadraticAlgebra.im_mul, ZMod.natCast_mod, Nat.cast_add, Nat.cast_mul]; ring

/-- the equation of the twist, on numbers; multiplied by `1 + i` for D-type twists -/
def eqnB (K : PairRom C) (x y : Nat × Nat) : Bool :=
  let p := K.rom.p
  let b := K.rom.bI.toNat
  let l := mulN2 p y y
  let r := mulN2 p (mulN2 p x x) x
  if K.mtype then l.1 == (r.1 + b) % p && l.2 == (r.2 + b) % p
  else let l' := mulN2 p l (1, 1)
       let r' := mulN2 p r (1, 1)
       l'.1 == (r'.1 + b) % p && l'.2 == r'.2 % p

/-- the finite part of `TCurve` -/
def twistCheck (K : PairRom C) : Bool :=
  decide (2 < K.rom.P.n) && repB K.rom.P K.rom.p K.rom.bv && decide (limbsVal K.rom.P.b K.rom.bv = K.rom.bI) && decide (K.rom.bI ∈ [2, 3, 4, 9, 15]) &&
  noncubeB K.rom.p (if K.mtype then 2 * K.rom.bI.toNat ^ 2 else 4 * K.rom.bI.toNat ^ 2)

variable (K : PairRom C) [hp : Fact K.rom.p.Prime] [h4 : Fact (K.rom.p % 4 = 3)]

theorem Btw_eq (b : Nat) (hb : Ecp.Bcoef K.rom = b) (hxi : xi K.rom.p ≠ 0) :
    (K.mtype = true → Btw K = ⟨(b : ZMod K.rom.p), (b : ZMod K.rom.p)⟩) ∧ (K.mtype = false → Btw K * xi K.rom.p = ⟨(b : ZMod K.rom.p), 0⟩) := by
  constructor
  · intro hm
    rw [Btw, if_pos hm, hb]
    ext <;> simp
  · intro hm
    rw [Btw, if_neg (by simp [hm]), hb, div_mul_cancel₀ _ hxi]

theorem twist_sound (ht : TowerOk K.rom.P K.rom.p) (hpr : TowerPrime K.rom.p) (h : twistCheck K = true) : TCurve K := by
  unfold twistCheck at h
  simp only [Bool.and_eq_true, decide_eq_true_eq] at h
  obtain ⟨⟨⟨⟨h1, h2⟩, h3⟩, h5⟩, h6⟩ := h
  obtain ⟨r1, r2⟩ := repB_sound h2
  have hI : (K.rom.bI.toNat : Int) = K.rom.bI := Int.toNat_of_nonneg (by
    simp only [List.mem_cons, List.not_mem_nil, or_false] at h5; omega)
  have hb : Ecp.Bcoef K.rom = (K.rom.bI.toNat : ZMod K.rom.p) := by
    rw [Ecp.Bcoef, h3, ← Int.cast_natCast, hI]
  refine ⟨ht, h1, ⟨_, r1, r2⟩, by rw [Ecp.Bcoef, h3], h5, ?_⟩
  intro x hx
  have hxi : xi K.rom.p ≠ 0 := by
    intro e; have := congrArg QuadraticAlgebra.re e; simp at this
  obtain ⟨bM, bD⟩ := Btw_eq K _ hb hxi
  have e3 : nm2 (x ^ 3) = nm2 x ^ 3 := by rw [pow_succ, pow_two x, nm2_mul, nm2_mul]; ring
  have hx3 : x ^ 3 = -Btw K := by linear_combination hx
  have h3' : K.rom.p % 3 = 1 := by have := hpr.mod6; omega
  have nneg : ∀ v : F2 K.rom.p, nm2 (-v) = nm2 v := by intro v; simp [nm2]
  by_cases hm : K.mtype = true
  · rw [if_pos hm] at h6
    apply noncubeB_sound h3' h6 (nm2 x)
    rw [← e3, hx3, nneg, bM hm]
    simp [nm2]; ring
  · rw [if_neg hm] at h6
    apply noncubeB_sound h3' h6 (2 * nm2 x)
    have e := congrArg nm2 (bD (by simpa using hm))
    rw [nm2_mul] at e
    rw [mul_pow, ← e3, hx3, nneg]
    have e1 : nm2 (xi K.rom.p) = 2 := by simp [nm2]; norm_num
    rw [e1] at e
    simp only [nm2] at e ⊢
    push_cast
    linear_combination 4 * e

theorem eqn_sound (h : TCurve K) (x y : Nat × Nat) (hx : eqnB K x y = true) : castN2 K.rom.p y ^ 2 = castN2 K.rom.p x ^ 3 + Btw K := by
  have hI : (K.rom.bI.toNat : Int) = K.rom.bI := Int.toNat_of_nonneg (by
    have h5 := h.small
    simp only [List.mem_cons, List.not_mem_nil, or_false] at h5; omega)
  have hb : Ecp.Bcoef K.rom = (K.rom.bI.toNat : ZMod K.rom.p) := by
    rw [← h.bI, ← Int.cast_natCast, hI]
  have hxi : xi K.rom.p ≠ 0 := by
    intro e; have := congrArg QuadraticAlgebra.re e; simp at this
  obtain ⟨bM, bD⟩ := Btw_eq K _ hb hxi
  have c1 : castN2 K.rom.p y ^ 2 = castN2 K.rom.p (mulN2 K.rom.p y y) := by rw [castN2_mul]; ring
  have c2 : castN2 K.rom.p x ^ 3 = castN2 K.rom.p (mulN2 K.rom.p (mulN2 K.rom.p x x) x) := by rw [castN2_mul, castN2_mul]; ring
  unfold eqnB at hx
  dsimp only at hx
  rw [c1, c2]
  split at hx
  · rename_i hm
    simp only [Bool.and_eq_true, beq_iff_eq] at hx
    rw [bM hm]
    ext
    · simp only [castN2, QuadraticAlgebra.re_add, hx.1, ZMod.natCast_mod, Nat.cast_add]
    · simp only [castN2, QuadraticAlgebra.im_add, hx.2, ZMod.natCast_mod, Nat.cast_add]
  · rename_i hm
    simp only [Bool.and_eq_true, beq_iff_eq] at hx
    have e11 : castN2 K.rom.p (1, 1) = xi K.rom.p := by ext <;> simp [castN2]
    have e : castN2 K.rom.p (mulN2 K.rom.p (mulN2 K.rom.p y y) (1, 1)) = castN2 K.rom.p (mulN2 K.rom.p (mulN2 K.rom.p (mulN2 K.rom.p x x) x) (1, 1)) + Btw K * xi K.rom.p := by
      rw [bD (by simpa using hm)]
      ext
      · simp only [castN2, QuadraticAlgebra.re_add, hx.1, ZMod.natCast_mod, Nat.cast_add]
      · simp only [castN2, QuadraticAlgebra.im_add, hx.2, ZMod.natCast_mod, add_zero]
    rw [castN2_mul _ (1, 1), castN2_mul _ (1, 1), e11] at e
    apply mul_right_cancel₀ hxi
    rw [e]; ring

/-- the generator of the ROM file is on the twist -/
def genCheck (K : PairRom C) : Bool :=
  repB K.rom.P K.rom.p K.pxa && repB K.rom.P K.rom.p K.pxb && repB K.rom.P K.rom.p K.pya && repB K.rom.P K.rom.p K.pyb &&
  eqnB K ((limbsVal K.rom.P.b K.pxa).toNat, (limbsVal K.rom.P.b K.pxb).toNat) ((limbsVal K.rom.P.b K.pya).toNat, (limbsVal K.rom.P.b K.pyb).toNat)

theorem castN2_toNat {p : Nat} {a b : Int} (ha : 0 ≤ a) (hb : 0 ≤ b) : castN2 p (a.toNat, b.toNat) = ⟨(a : ZMod p), (b : ZMod p)⟩ := by
  have h1 : ((a.toNat : Int) : ZMod p) = (a : ZMod p) := by rw [Int.toNat_of_nonneg ha]
  have h2 : ((b.toNat : Int) : ZMod p) = (b : ZMod p) := by rw [Int.toNat_of_nonneg hb]
  rw [Int.cast_natCast] at h1 h2
  unfold castN2
  rw [h1, h2]

theorem gen_sound (h : TCurve K) (hg : genCheck K = true) :
    ∃ hh, IsPoint2 K 2 (generator K) (Affine.Point.some ⟨(K.rom.val K.pxa : ZMod K.rom.p), (K.rom.val K.pxb : ZMod K.rom.p)⟩
      ⟨(K.rom.val K.pya : ZMod K.rom.p), (K.rom.val K.pyb : ZMod K.rom.p)⟩ hh) := by
  unfold genCheck at hg
  simp only [Bool.and_eq_true] at hg
  obtain ⟨⟨⟨⟨g1, g2⟩, g3⟩, g4⟩, g5⟩ := hg
  obtain ⟨a1, b1⟩ := repB_sound g1
  obtain ⟨a2, b2⟩ := repB_sound g2
  obtain ⟨a3, b3⟩ := repB_sound g3
  obtain ⟨a4, b4⟩ := repB_sound g4
  have hx := std2_iff.1 (std2_newBigs h.tower a1 b1 a2 b2)
  have hy := std2_iff.1 (std2_newBigs h.tower a3 b3 a4 b4)
  have nn : ∀ {x : Limbs C} {n : Nat}, Rep K.rom.P.b K.rom.P.n x n → 0 ≤ limbsVal K.rom.P.b x := fun r => by rw [r.val]; exact Int.natCast_nonneg _
  have e1 := castN2_toNat (p := K.rom.p) (nn a1) (nn a2)
  have e2 := castN2_toNat (p := K.rom.p) (nn a3) (nn a4)
  have key := (newFp2s_ok h hx le_rfl hy le_rfl (by norm_num)).1 (eqn_sound K h _ _ g5)
  have e1' : (⟨((limbsVal K.rom.P.b K.pxa).toNat : ZMod K.rom.p), ((limbsVal K.rom.P.b K.pxb).toNat : ZMod K.rom.p)⟩ : F2 K.rom.p) =
      ⟨(K.rom.val K.pxa : ZMod K.rom.p), (K.rom.val K.pxb : ZMod K.rom.p)⟩ := e1
  have e2' : (⟨((limbsVal K.rom.P.b K.pya).toNat : ZMod K.rom.p), ((limbsVal K.rom.P.b K.pyb).toNat : ZMod K.rom.p)⟩ : F2 K.rom.p) =
      ⟨(K.rom.val K.pya : ZMod K.rom.p), (K.rom.val K.pyb : ZMod K.rom.p)⟩ := e2
  rw [e1', e2'] at key
  exact key

/-- a finite point from literals -/
theorem point_sound (h : TCurve K) {xa xb ya yb : Limbs C} (h1 : repB K.rom.P K.rom.p xa = true) (h2 : repB K.rom.P K.rom.p xb = true)
    (h3 : repB K.rom.P K.rom.p ya = true) (h5 : repB K.rom.P K.rom.p yb = true)
    (he : eqnB K ((limbsVal K.rom.P.b xa).toNat, (limbsVal K.rom.P.b xb).toNat) ((limbsVal K.rom.P.b ya).toNat, (limbsVal K.rom.P.b yb).toNat) = true) :
    ∃ hh, IsPoint2 K 2 (newFp2s K (Fp2.newBigs K.rom.P xa xb) (Fp2.newBigs K.rom.P ya yb))
      (Affine.Point.some (castN2 K.rom.p ((limbsVal K.rom.P.b xa).toNat, (limbsVal K.rom.P.b xb).toNat)) (castN2 K.rom.p ((limbsVal K.rom.P.b ya).toNat, (limbsVal K.rom.P.b yb).toNat)) hh) := by
  obtain ⟨a1, b1⟩ := repB_sound h1
  obtain ⟨a2, b2⟩ := repB_sound h2
  obtain ⟨a3, b3⟩ := repB_sound h3
  obtain ⟨a4, b4⟩ := repB_sound h5
  have hx := std2_iff.1 (std2_newBigs h.tower a1 b1 a2 b2)
  have hy := std2_iff.1 (std2_newBigs h.tower a3 b3 a4 b4)
  exact (newFp2s_ok h hx le_rfl hy le_rfl (by norm_num)).1 (eqn_sound K h _ _ he)

end Verif.Ecp2
