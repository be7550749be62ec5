import Verif.Gt.Pow4
import Verif.Tower.Wide12
/- `fexp`: every intermediate value is a power of the result of the easy part. -/
namespace Verif.Gt
open Verif.Big Verif.Fp Verif.Prog Verif.Tower Verif.Pair Spec
set_option linter.unusedVariables false
set_option linter.unusedSectionVars false

theorem conj_aa {C : Nat} (P : Params C) (x : Fp12 C) : (Fp12.conj P x).a.a = Fp2.norm P x.a.a := rfl
theorem frob_type {C : Nat} (P : Params C) (x : Fp12 C) (f : Fp2 C) (hx : x.stype < 2 ^ 64) : (Fp12.frob P x f).stype < 2 ^ 64 := by
  show tDENSE < 2 ^ 64
  decide

theorem red_type {C : Nat} (P : Params C) (x : Fp12 C) : (Fp12.reduce P x).stype = x.stype := rfl

/-- `fexp` returns a dense element -/
theorem fexp_type {C : Nat} {K : GlsRom C} {m r : Fp12 C} (h : fexp K m = some r) : r.stype < 2 ^ 64 := by
  have key : ∀ {x y z : Fp12 C}, z = Fp12.reduce K.pair.rom.P (Fp12.mul K.pair.rom.P x y) → z.stype < 2 ^ 64 := by
    rintro x y z rfl
    rw [red_type]; exact mul_type _ _ _
  have bnd : ∀ {o : Option (Fp12 C)} {f : Fp12 C → Option (Fp12 C)} {z : Fp12 C}, o.bind f = some z → ∃ a, f a = some z := by
    intro o f z hz
    obtain ⟨a, _, ha⟩ := Option.bind_eq_some_iff.1 hz
    exact ⟨a, ha⟩
  unfold fexp at h
  dsimp only at h
  split at h
  · unfold hardBn at h
    dsimp only at h
    obtain ⟨_, h⟩ := bnd h
    obtain ⟨_, h⟩ := bnd h
    obtain ⟨_, h⟩ := bnd h
    exact key (Option.some.inj h).symm
  · unfold hardBls at h
    dsimp only at h
    obtain ⟨_, h⟩ := bnd h
    obtain ⟨_, h⟩ := bnd h
    obtain ⟨_, h⟩ := bnd h
    obtain ⟨_, h⟩ := bnd h
    obtain ⟨_, h⟩ := bnd h
    exact key (Option.some.inj h).symm

attribute [local irreducible] Fp12.mul Fp12.usqr Fp12.conj Fp12.frob Fp12.norm Fp12.reduce Fp12.inverse

variable {C : Nat} {P : Params C} {p : Nat} [hp : Fact p.Prime]

/-- `x` denotes `g^n`, counters at most `K` -/
def Wp (P : Params C) (p K : Nat) [Fact p.Prime] (g : (F12 p)ˣ) (n : Int) (x : Fp12 C) : Prop := Std12 P p K x ((g ^ n : (F12 p)ˣ) : F12 p)

theorem Wp.cast {K : Nat} {g : (F12 p)ˣ} {n m : Int} {x : Fp12 C} (hx : Wp P p K g n x) (e : n = m) : Wp P p K g m x := e ▸ hx

section
variable (h : TowerOk P p) (t : TowerPrime p) {g : (F12 p)ˣ} (hg : Cyc p g) {f : Fp2 C} (hf : Std2 P p 3 f (xi p ^ ((p - 1) / 6)))
include h

theorem Wp.mono {K L : Nat} {n : Int} {x : Fp12 C} (hx : Wp P p K g n x) (hL : K ≤ L) : Wp P p L g n x := Std12.mono h hx hL

theorem Wp.red {K : Nat} {n m : Int} {x : Fp12 C} (hx : Wp P p K g n x) (e : n = m) : Canon12 P p (Fp12.reduce P x) ((g ^ m : (F12 p)ˣ) : F12 p) :=
  canon12_reduce h (hx.cast e)

theorem Wp.mul {K L : Nat} {n m : Int} {x y : Fp12 C} (hx : Wp P p K g n x) (hy : Wp P p L g m y) (hK : K ≤ 150000) (hL : L ≤ 32767) : Wp P p 2800 g (n + m) (Fp12.mul P x y) := by
  unfold Wp
  rw [zpow_add]
  exact mul_u h (hx.mono h hK) (hy.mono h hL)

include t hg

theorem Wp.usqr {K : Nat} {n : Int} {x : Fp12 C} (hx : Wp P p K g n x) (hK : K ≤ 19184) : Wp P p 1 g (2 * n) (Fp12.usqr P x) := by
  unfold Wp
  rw [mul_comm, zpow_mul]
  exact usqr_u h t (hg.zpow n) (hx.mono h hK)

theorem Wp.conj {K L : Nat} {n : Int} {x : Fp12 C} (hx : Wp P p K g n x) (hL : negE (2 * K) + K ≤ L) : Wp P p L g (-n) (Fp12.conj P x) := by
  unfold Wp
  rw [zpow_neg]
  exact conj_u h t (hg.zpow n) hx hL

omit hg in
include hf in
theorem Wp.frob' {K M L : Nat} {n : Int} {x : Fp12 C} (hx : Wp P p M g n x) (ha : Std2 P p K x.a.a ((g ^ n : (F12 p)ˣ) : F12 p).a.re) (hL : max (negE K) K ≤ L) (h3 : 3 ≤ L) :
    Wp P p L g (p * n) (Fp12.frob P x f) := by
  unfold Wp
  have := frob12_gen h hx ha hf hL h3
  rw [← f12_pow (by have := t.mod8; omega) t.mod6 rfl, ← Units.val_pow_eq_pow_val, ← zpow_natCast, ← zpow_mul, mul_comm] at this
  exact this

omit hg in
include hf in
theorem Wp.frob {K L : Nat} {n : Int} {x : Fp12 C} (hx : Wp P p K g n x) (hL : max (negE K) K ≤ L) (h3 : 3 ≤ L) : Wp P p L g (p * n) (Fp12.frob P x f) :=
  Wp.frob' h t hf hx hx.1.1 hL h3

theorem conjIf_W {K L : Nat} {n : Int} {x : Fp12 C} (c : Bool) (hx : Wp P p K g n x) (hL : negE (2 * K) + K ≤ L) : Wp P p L g (if c then -n else n) (conjIf P c x) := by
  unfold conjIf
  cases c
  · exact hx.mono h (by omega)
  · exact Wp.conj h t hg hx hL

/-- `pow` followed by the conditional `conj` -/
theorem Wp.pow (hsz : 2 * (P.b * P.n) ≤ 13000) {K : Nat} {n : Int} {x : Fp12 C} (hx : Wp P p K g n x) (hK : K ≤ 2800) {e : Limbs C} {E : Nat}
    (he : Rep P.b P.n e E) (h0 : 0 < E) (hE : 3 * E < 2 ^ (P.b * P.n)) (c : Bool) :
    ∃ r, Gt.pow P x e = some r ∧ Wp P p 16 g (n * (if c then -(E : Int) else E)) (conjIf P c r) := by
  obtain ⟨r, h1, h2⟩ := pow_ok h t hsz (hg.zpow n) (hx.mono h hK) he h0 hE
  refine ⟨r, h1, ?_⟩
  have : Wp P p 1 g (n * E) r := by unfold Wp; rw [zpow_mul, zpow_natCast]; exact h2.1
  have := conjIf_W h t hg c this (L := 16) (by decide +kernel)
  have e : (if c = true then -(n * (E : Int)) else n * E) = n * (if c = true then -(E : Int) else E) := by split <;> ring
  rwa [e] at this

omit hg in
omit t in
theorem norm_aa {K : Nat} {x : Fp2 C} {v : F2 p} (hx : Std2 P p K x v) : Std2 P p K (Fp2.norm P x) v := std2_iff.2 (norm2_ok h (std2_iff.1 hx))

/-- exponent computed by the BLS branch -/
def nBls (p X Xh : Int) : Int :=
  let y1 := -(2 * X + -1) + 2 * X * Xh
  p * (p * (p * - -y1)) + p * (p * (y1 * X)) + ((y1 * X * X + -y1) * X + 2 + 1) + p * (y1 * X * X + -y1)

include hf in
/-- hard part, BLS curves -/
theorem hardBls_ok (hsz : 2 * (P.b * P.n) ≤ 13000) {x : Limbs C} {X : Nat} {neg : Bool} (hX : Rep P.b P.n x X)
    (hXh : Rep P.b P.n (fshr P.b 1 x) (X / 2 : Nat)) (hX' : Rep P.b P.n (fshl P.b 1 (fshr P.b 1 x)) (2 * (X / 2) : Nat)) (h2 : 2 ≤ X) (hE : 3 * X < 2 ^ (P.b * P.n)) (hev : X % 2 = 0) {r : Fp12 C}
    (hr : Wp P p 2800 g 1 r) :
    ∃ R, hardBls P f x neg r = some R ∧ Canon12 P p R ((g ^ (nBls p (if neg then -(X : Int) else X) (if neg then -((X / 2 : Nat) : Int) else (X / 2 : Nat))) : (F12 p)ˣ) : F12 p) := by
  rw [show 2 * (X / 2) = X by omega] at hX'
  have y0 := Wp.usqr h t hg hr (by norm_num)
  obtain ⟨a1, e1, y1⟩ := Wp.pow h t hg hsz y0 (by norm_num) hX (by omega) hE neg
  obtain ⟨a2, e2, y2⟩ := Wp.pow h t hg hsz y1 (by norm_num) hXh (by omega) (by omega) neg
  have y3 := Wp.conj h t hg hr (L := 19184) (by decide +kernel)
  have y1b := Wp.mul h y1 y3 (by norm_num) (by norm_num)
  have y1c := Wp.conj h t hg y1b (L := 19184) (by decide +kernel)
  have y1d := Wp.mul h y1c y2 (by norm_num) (by norm_num)
  obtain ⟨a3, e3, y2b⟩ := Wp.pow h t hg hsz y1d (by norm_num) hX' (by omega) hE neg
  obtain ⟨a4, e4, y3b⟩ := Wp.pow h t hg hsz y2b (by norm_num) hX' (by omega) hE neg
  have y1e := Wp.conj h t hg y1d (L := 19184) (by decide +kernel)
  have y3c := Wp.mul h y3b y1e (by norm_num) (by norm_num)
  have y1f := Wp.conj h t hg y1e (L := 150304) (by decide +kernel)
  have aa := norm_aa h (norm_aa h y1d.1.1)
  rw [← conj_aa, ← conj_aa] at aa
  have y1g := Wp.frob' h t hf y1f (K := 2800) (L := 8192) (by simpa only [neg_neg] using aa) (by decide +kernel) (by norm_num)
  have y1h := Wp.frob h t hf y1g (L := 32768) (by decide +kernel) (by norm_num)
  have y1i := Wp.frob h t hf y1h (L := 131072) (by decide +kernel) (by norm_num)
  have y2c := Wp.frob h t hf y2b (L := 64) (by decide +kernel) (by norm_num)
  have y2d := Wp.frob h t hf y2c (L := 256) (by decide +kernel) (by norm_num)
  have y1j := Wp.mul h y1i y2d (by norm_num) (by norm_num)
  obtain ⟨a5, e5, y2e⟩ := Wp.pow h t hg hsz y3c (by norm_num) hX' (by omega) hE neg
  have y2f := Wp.mul h y2e y0 (by norm_num) (by norm_num)
  have y2g := Wp.mul h y2f hr (by norm_num) (by norm_num)
  have y1k := Wp.mul h y1j y2g (by norm_num) (by norm_num)
  have y2h := Wp.frob h t hf y3c (L := 8192) (by decide +kernel) (by norm_num)
  have y1l := Wp.mul h y1k y2h (by norm_num) (by norm_num)
  refine ⟨_, ?_, Wp.red h y1l ?_⟩
  rotate_left
  · unfold nBls
    ring
  · unfold hardBls
    simp only [e1, e2, e3, e4, e5, Option.bind_some]

/-- exponent computed by the BN branch; `X` is minus the parameter -/
def nBn (p X : Int) : Int :=
  let lv := 2 * (X * X * X + p * (X * X * X)) + (X + -(p * (X * X))) + -(X * X)
  let r := 2 * (2 * (p * X + -(X * X) + lv) + (lv + p * (p * (X * X))))
  r + p * (p * p + (p + 1)) + 2 * (r + -1)

include hf in
/-- hard part, BN curves -/
theorem hardBn_ok (hsz : 2 * (P.b * P.n) ≤ 13000) {x : Limbs C} {X : Nat} {pos : Bool} (hX : Rep P.b P.n x X) (h2 : 0 < X) (hE : 3 * X < 2 ^ (P.b * P.n)) {r : Fp12 C}
    (hr : Wp P p 2800 g 1 r) : ∃ R, hardBn P f x pos r = some R ∧ Canon12 P p R ((g ^ (nBn p (if pos then -(X : Int) else X)) : (F12 p)ˣ) : F12 p) := by
  have lv1 := Wp.frob h t hf hr (L := 8192) (by decide +kernel) (by norm_num)
  have x0a := Wp.frob h t hf lv1 (L := 32768) (by decide +kernel) (by norm_num)
  have lv2 := Wp.mul h lv1 hr (by norm_num) (by norm_num)
  have x0b := Wp.mul h x0a lv2 (by norm_num) (by norm_num)
  have x0c := Wp.frob h t hf x0b (L := 8192) (by decide +kernel) (by norm_num)
  have x1 := Wp.conj h t hg hr (L := 19184) (by decide +kernel)
  obtain ⟨a1, e1, x4⟩ := Wp.pow h t hg hsz hr (by norm_num) hX h2 hE pos
  have x3 := Wp.frob h t hf x4 (L := 64) (by decide +kernel) (by norm_num)
  obtain ⟨a2, e2, x2⟩ := Wp.pow h t hg hsz x4 (by norm_num) hX h2 hE pos
  have x5 := Wp.conj h t hg x2 (L := 256) (by decide +kernel)
  obtain ⟨a3, e3, lv3⟩ := Wp.pow h t hg hsz x2 (by norm_num) hX h2 hE pos
  have x2b := Wp.frob h t hf x2 (L := 64) (by decide +kernel) (by norm_num)
  have r1 := Wp.conj h t hg x2b (L := 1024) (by decide +kernel)
  have x4b := Wp.mul h x4 r1 (by norm_num) (by norm_num)
  have x2c := Wp.frob h t hf x2b (L := 256) (by decide +kernel) (by norm_num)
  have r2 := Wp.frob h t hf lv3 (L := 64) (by decide +kernel) (by norm_num)
  have lv4 := Wp.mul h lv3 r2 (by norm_num) (by norm_num)
  have lv5 := Wp.usqr h t hg lv4 (by norm_num)
  have lv6 := Wp.mul h lv5 x4b (by norm_num) (by norm_num)
  have lv7 := Wp.mul h lv6 x5 (by norm_num) (by norm_num)
  have r3 := Wp.mul h x3 x5 (by norm_num) (by norm_num)
  have r4 := Wp.mul h r3 lv7 (by norm_num) (by norm_num)
  have lv8 := Wp.mul h lv7 x2c (by norm_num) (by norm_num)
  have r5 := Wp.usqr h t hg r4 (by norm_num)
  have r6 := Wp.mul h r5 lv8 (by norm_num) (by norm_num)
  have r7 := Wp.usqr h t hg r6 (by norm_num)
  have lv9 := Wp.mul h r7 x1 (by norm_num) (by norm_num)
  have r8 := Wp.mul h r7 x0c (by norm_num) (by norm_num)
  have lv10 := Wp.usqr h t hg lv9 (by norm_num)
  have r9 := Wp.mul h r8 lv10 (by norm_num) (by norm_num)
  refine ⟨_, ?_, Wp.red h r9 ?_⟩
  rotate_left
  · unfold nBn
    ring
  · unfold hardBn
    simp only [e1, e2, e3, Option.bind_some]

end

section
variable (h : TowerOk P p) (t : TowerPrime p) {f : Fp2 C} (hf : Std2 P p 3 f (xi p ^ ((p - 1) / 6)))
include t

theorem pow12 (u : (F12 p)ˣ) : u ^ (p ^ 12) = u := by
  apply Units.ext
  rw [show p ^ 12 = p ^ 6 * p ^ 6 by ring, pow_mul, Units.val_pow_eq_pow_val, Units.val_pow_eq_pow_val, f12_pow6 t.mod8 t.mod6 t.two, f12_pow6 t.mod8 t.mod6 t.two]
  unfold conj12
  simp

include h hf

omit hf in
theorem inverse12_weq {x : Fp12 C} {v w : F12 p} (hx : Std12 P p 32767 x v) (hw : v * w = 1) : Std12 P p 41 (Fp12.inverse P x) w := by
  have i := inverse12_wide h hx
  have e : (⟨(adj12 v).a * inv4 (norm12 v), (adj12 v).b * inv4 (norm12 v), (adj12 v).c * inv4 (norm12 v)⟩ : F12 p) = inv12 v := by
    unfold inv12
    ext1 <;> simp
  rw [e] at i
  have m := mul_inv12 t.mod8 t.noncube (TowerPrime.ne_zero hw)
  have : inv12 v = w := by
    calc inv12 v = inv12 v * (v * w) := by rw [hw, mul_one]
      _ = (v * inv12 v) * w := by ring
      _ = w := by rw [m, one_mul]
  rw [← this]
  exact i

/-- the easy part raises to `(p^6 - 1)(p^2 + 1)` -/
theorem easy_ok {m : Fp12 C} {u : (F12 p)ˣ} (hm : Std12 P p 32767 m u) :
    Std12 P p 2800 (easy P f m) ((u ^ (p ^ 6) * u⁻¹) ^ (p ^ 2) * (u ^ (p ^ 6) * u⁻¹) : (F12 p)ˣ) ∧ Cyc p ((u ^ (p ^ 6) * u⁻¹) ^ (p ^ 2) * (u ^ (p ^ 6) * u⁻¹)) := by
  constructor
  · have i1 := inverse12_weq h t hm (w := ((u⁻¹ : (F12 p)ˣ) : F12 p)) (by simp)
    have i2 := conj12_gen h hm (L := 400000) (by decide +kernel)
    rw [← f12_pow6 t.mod8 t.mod6 t.two, ← Units.val_pow_eq_pow_val] at i2
    have i3 := mul12_wide h i2 i1
    rw [← Units.val_mul] at i3
    have w1 : Wp P p 2800 (u ^ (p ^ 6) * u⁻¹) 1 (Fp12.mul P (Fp12.conj P m) (Fp12.inverse P m)) := by unfold Wp; rw [zpow_one]; exact i3
    have w2 := Wp.frob h t hf w1 (L := 8192) (by decide +kernel) (by norm_num)
    have w3 := Wp.frob h t hf w2 (L := 32768) (by decide +kernel) (by norm_num)
    have w4 := Wp.mul h w3 w1 (by norm_num) (by norm_num)
    unfold Wp at w4
    rw [zpow_add, zpow_one, show (p : Int) * (p * 1) = ((p ^ 2 : Nat) : Int) by push_cast; ring, zpow_natCast] at w4
    exact w4
  · have hp0 := hp.out.pos
    have h2 : p ^ 2 ≤ p ^ 4 := Nat.pow_le_pow_right hp0 (by norm_num)
    have hq : (u ^ (p ^ 6) * u⁻¹) ^ (p ^ 6) = (u ^ (p ^ 6) * u⁻¹)⁻¹ := by
      rw [mul_pow, ← pow_mul, show p ^ 6 * p ^ 6 = p ^ 12 by ring, pow12 t, inv_pow, mul_inv, inv_inv, mul_comm]
    unfold Cyc
    rw [← pow_succ, ← pow_mul]
    have e : (p ^ 2 + 1) * (p ^ 4 - p ^ 2 + 1) = p ^ 6 + 1 := by
      obtain ⟨k, hk⟩ := Nat.exists_eq_add_of_le h2
      rw [hk, Nat.add_sub_cancel_left]
      have h6 : p ^ 6 = p ^ 2 * (p ^ 2 + k) := by rw [← hk]; ring
      have h4 : p ^ 4 = p ^ 2 * p ^ 2 := by ring
      rw [h4] at hk
      rw [h6]
      generalize p ^ 2 = q at hk
      linear_combination -hk
    rw [e, pow_succ, hq, inv_mul_cancel]

end
end Verif.Gt
