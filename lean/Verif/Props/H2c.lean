import Verif.Bls.HashOk
import Verif.Props.Subgroup
import Verif.Props.Bls
/-
C66: the SSWU maps. C67: mapping field elements to G1 and G2 of BLS12-381, with the exceptional inputs. C68: hashing to G1 and G2.
-/
namespace Verif.Props
open Verif.Big Verif.Fp Verif.Rom Verif.Curve Verif.Tower Verif.Ecp Verif.Ecp2 Verif.Pair Verif.Bls Verif.H2c Spec Spec.Sswu WeierstrassCurve

/-! ### the exceptional inputs exist -/

section
variable {p : Nat} [hp : Fact p.Prime] [h4 : Fact (p % 4 = 3)]

/-- how to recognise the first candidate -/
theorem x1_of {F : Type} [Field F] {A B Z u d x : F} (hA : A ≠ 0) (hd : (Z * u ^ 2) ^ 2 + Z * u ^ 2 = d) (h0 : d ≠ 0) (h : A * x * d = -(B * (d + 1))) : x1 A B Z u = x := by
  unfold x1
  rw [hd, if_neg h0]
  field_simp
  linear_combination -h

omit h4 in
theorem absc_num {A B Z u t d r s : Nat} (hA : A % p ≠ 0) (ht : Z * u ^ 2 % p = t % p) (hd : (t ^ 2 + t) % p = d % p) (h0 : d % p ≠ 0) (hr : (A * r * d + B * (d + 1)) % p = 0)
    (hs : (r ^ 3 + A * r + B) % p = s * s % p) : absc (A : ZMod p) (B : ZMod p) (Z : ZMod p) (u : ZMod p) = (r : ZMod p) := by
  have t' := nat_eq ht
  have d' := nat_eq hd
  have r' := nat_eq (p := p) (a := A * r * d + B * (d + 1)) (b := 0) (by rw [hr, Nat.zero_mod])
  have s' := nat_eq hs
  push_cast at t' d' r' s'
  have h1 : x1 (A : ZMod p) (B : ZMod p) (Z : ZMod p) (u : ZMod p) = (r : ZMod p) := by
    refine x1_of (nat_ne hA) (d := (d : ZMod p)) ?_ (nat_ne h0) ?_
    · rw [t', d']
    · linear_combination r'
  unfold absc
  rw [h1, if_pos]
  exact ⟨(s : ZMod p), s'⟩

/-- an element whose image lies in the kernel of the 11-isogeny -/
def u11 : Nat := 0x1377c0192d99508a317127abf17c64205c7aad448380027efb47ae73ea231dbd6ecd3f2841b63d309c35bb8fd13e48f0

omit h4 in
theorem exc1 (e : p = Pair.p381) : Exc1 p (u11 : ZMod p) := by
  subst e
  refine ⟨0x10ef325dd1e98bdf0d97a4c6b7f968ed7f31f2fbff088acb39d5319cfc261ea18773405f325612742f0c5d90634bcf4, by unfold kernel11; exact List.mem_cons_self .., ?_⟩
  have := absc_num (p := Pair.p381) (A := sswuA1) (B := sswuB1) (Z := 11) (u := u11) (t := 11 * u11 ^ 2 % Pair.p381)
    (d := ((11 * u11 ^ 2 % Pair.p381) ^ 2 + 11 * u11 ^ 2 % Pair.p381) % Pair.p381)
    (r := 0x10ef325dd1e98bdf0d97a4c6b7f968ed7f31f2fbff088acb39d5319cfc261ea18773405f325612742f0c5d90634bcf4)
    (s := 0xeb3efc0a8592166adb221f4b9158d9ff0d160ce6a2cc1a280b3ec28c01870fa13ca7cddd7ba78f6cd54fe36375cd5fd)
    (by decide +kernel) (by decide +kernel) (by decide +kernel) (by decide +kernel) (by decide +kernel) (by decide +kernel)
  rw [show ((11 : Nat) : ZMod Pair.p381) = 11 from Nat.cast_ofNat] at this
  exact this

/-! G2 -/

theorem absc_num2 {A B Z u t d r s : Nat × Nat} (hA : castN2 p A ≠ 0) (ht : mulN2 p Z (mulN2 p u u) = t) (hd : addP p (mulN2 p t t) t = d) (h0 : castN2 p d ≠ 0)
    (hr : addP p (mulN2 p (mulN2 p A r) d) (mulN2 p B (addP p d (1, 0))) = (0, 0))
    (hs : addP p (addP p (mulN2 p (mulN2 p r r) r) (mulN2 p A r)) B = mulN2 p s s) : absc (castN2 p A) (castN2 p B) (castN2 p Z) (castN2 p u) = castN2 p r := by
  have t' := congrArg (castN2 p) ht
  have d' := congrArg (castN2 p) hd
  have r' := congrArg (castN2 p) hr
  have s' := congrArg (castN2 p) hs
  rw [castN2_mul, castN2_mul, ← pow_two] at t'
  rw [castN2_add, castN2_mul, ← pow_two] at d'
  rw [castN2_add, castN2_mul, castN2_mul, castN2_mul, castN2_add, castN2_10, castN2_00] at r'
  rw [castN2_add, castN2_add, castN2_mul, castN2_mul, castN2_mul, castN2_mul, show castN2 p r * castN2 p r * castN2 p r = castN2 p r ^ 3 by ring] at s'
  have h1 : x1 (castN2 p A) (castN2 p B) (castN2 p Z) (castN2 p u) = castN2 p r := by
    refine x1_of hA (d := castN2 p d) ?_ h0 ?_
    · rw [t', d']
    · linear_combination r'
  unfold absc
  rw [h1, if_pos]
  exact ⟨castN2 p s, s'⟩

/-- an element on which `map_to_curve_g2` panics -/
def u3 : Nat × Nat := (0x3978be763e8f1e054294b4c91ddf1d83cdc6262374ae0a13ef03827063e0b6ddc2ce21abfb7a5d10a1a63f8413d61df, 0xa19c446cb4a35632cf0e1424d312871135493ff439c6d14963337519661edbef64885b302825130da2883f206a11685)

def r3 : Nat × Nat := (0xa18f468b07588c6c1c737825a347206a72a6d731df8e11b00a2c7224914c763cac8db903b3b467978924956b1c1d184, 5)
def t3 : Nat × Nat := mulN2 Pair.p381 (Pair.p381 - 2, Pair.p381 - 1) (mulN2 Pair.p381 u3 u3)
def d3 : Nat × Nat := addP Pair.p381 (mulN2 Pair.p381 t3 t3) t3

theorem exc2 (e : p = Pair.p381) : Exc2 p (castN2 p u3) := by
  subst e
  have ha := absc_num2 (p := Pair.p381) (A := (0, 240)) (B := (1012, 1012)) (Z := (Pair.p381 - 2, Pair.p381 - 1)) (u := u3) (t := t3) (d := d3) (r := r3) (s := (0, 0x1199f1d1121ca2e405fc3fdb1bc10faa0cf782bb6d9218ca409fe7bdf30c1f91e2189d4bcd9faf604110821f0b8739c2))
    (castN2_ne (by decide +kernel)) rfl rfl (castN2_ne (by decide +kernel)) (by decide +kernel) (by decide +kernel)
  rw [← A2_cast, ← B2_cast, ← Z2_cast (by decide +kernel)] at ha
  have hg : g (A2 Pair.p381) (B2 Pair.p381) (castN2 Pair.p381 r3) = ⟨((0x85986c48311c627ec7dd5751e9b2605bba0f8976d0ba6a5b0dbdbf82a55fe9b6fa374a22c7659579527c7674964bfdf : Nat) : ZMod Pair.p381), 0⟩ := by
    rw [← gN_eq, castN2_eq (b := (0x85986c48311c627ec7dd5751e9b2605bba0f8976d0ba6a5b0dbdbf82a55fe9b6fa374a22c7659579527c7674964bfdf, 0)) (by decide +kernel) (by decide +kernel)]
    unfold castN2
    rw [Nat.cast_zero]
  unfold Exc2
  rw [ha, hg]
  exact ⟨rfl, nonres_sound (by decide +kernel) (by decide +kernel)⟩

end

/-! ### the 64-bit ROM file -/

section
set_option linter.unusedSectionVars false
variable [hp : Fact bls381_64g.pair.rom.p.Prime] [h4 : Fact (bls381_64g.pair.rom.p % 4 = 3)]

omit hp h4 in
theorem map64B : bls381_64g.pair.rom.p = Pair.p381 ∧ bls381_64g.pair.rom.bI = 4 ∧ bls381_64g.pair.mtype = true := by decide +kernel

omit hp h4 in
theorem fp_ext {C : Nat} {a b : Fp C} (h1 : a.x = b.x) (h2 : a.xes = b.xes) : a = b := by
  cases a; cases b; simp only at h1 h2; rw [h1, h2]

omit hp h4 in
theorem map64m : Fp.newInt bls381_64g.pair.rom.P (-2) = cst bls381_64g.pair.rom (bls381_64g.pair.rom.p - 2) ∧
    Fp.newInt bls381_64g.pair.rom.P (-1) = cst bls381_64g.pair.rom (bls381_64g.pair.rom.p - 1) :=
  ⟨fp_ext (by decide +kernel) (by decide +kernel), fp_ext (by decide +kernel) (by decide +kernel)⟩

omit hp h4 in
theorem btw_four {C : Nat} {K : PairRom C} [Fact K.rom.p.Prime] [Fact (K.rom.p % 4 = 3)] (h : TCurve K) (hI : K.rom.bI = 4) (hm : K.mtype = true) :
    Bcoef K.rom = 4 ∧ Ecp2.Btw K = ⟨4, 4⟩ := by
  have e1 : Bcoef K.rom = 4 := by rw [← h.bI, hI]; norm_num
  refine ⟨e1, ?_⟩
  unfold Ecp2.Btw
  rw [if_pos hm, e1]
  ext
  · simp [xi]
  · simp [xi]

theorem bls64_cast : BlsCurve bls381_64g.pair.rom := bls381_bls

theorem map64 {lam : Int} (h : PairFacts bls381_64g lam) : MapCurve2 bls381_64g.pair where
  one :=
    { bls := bls64_cast
      tower := h.tw.tower
      wide := ⟨by decide +kernel, by decide +kernel⟩
      mod4 := h4.out
      facts := facts1 map64B.1
      a := by decide +kernel
      b := (btw_four h.tw map64B.2.1 map64B.2.2).1 }
  twist := h.tw
  facts := facts2 map64B.1
  b := (btw_four h.tw map64B.2.1 map64B.2.2).2
  m2 := map64m.1
  m1 := map64m.2
  word := by decide +kernel

omit hp h4 in
theorem h11_64 : (11 : Int) < 2 ^ bls381_64g.pair.rom.P.b := by decide +kernel

end

/-! ### C66 -/

/-- what C66 says: for every element `u` that denotes `v`, the map returns the abscissa of the specification and an ordinate that squares to the right-hand side and has
the sign of `u` -/
def SswuMaps1 {C : Nat} (K : Rom C) [Fact K.p.Prime] : Prop :=
  ∀ (u : Fp C) (v : ZMod K.p), Elem K.P K.p 0 1 u v → ∃ x y l k Y, sswuFp K.P (sswu1 K) u = some (x, y) ∧ l ≤ 1 ∧ k ≤ 1 ∧
    Elem K.P K.p 0 1 x (absc (A1 K.p) (B1 K.p) 11 v) ∧ Elem K.P K.p l k y Y ∧ Y ^ 2 = g (A1 K.p) (B1 K.p) (absc (A1 K.p) (B1 K.p) 11 v) ∧ Y ≠ 0 ∧
    (Fp.sgn0 K.P u = true ↔ Y.val % 2 = 1)

/-- the same over the quadratic extension, where the map panics exactly on the elements of `Exc2` -/
def SswuMaps2 {C : Nat} (K : Rom C) [Fact K.p.Prime] [Fact (K.p % 4 = 3)] : Prop :=
  ∀ (e : Nat) (u : Fp2 C) (v : F2 K.p), Rel2 K.P K.p ⟨0, 1, e⟩ u v → (Exc2 K.p v → sswuFp2 K.P (sswu2 K) u = none) ∧
    (¬ Exc2 K.p v → ∃ x y d Y, sswuFp2 K.P (sswu2 K) u = some (x, y) ∧
      Rel2 K.P K.p ⟨0, 1, 3⟩ x (absc (A2 K.p) (B2 K.p) (Z2 K.p) v) ∧ Rel2 K.P K.p d y Y ∧ Y ^ 2 = g (A2 K.p) (B2 K.p) (absc (A2 K.p) (B2 K.p) (Z2 K.p) v) ∧
      (Fp2.sgn0 K.P u = true ↔ odd2 Y))

theorem sswuMaps1_of {C : Nat} {K : Rom C} [Fact K.p.Prime] (M : MapCurve K) (hP : K.p = Pair.p381) (h11 : (11 : Int) < 2 ^ K.P.b) : SswuMaps1 K := by
  intro u v hu
  obtain ⟨x, y, l, k, Y, e, hl, hk, hx, hy, hY, hs⟩ := sswu1_ok M.tower M.wide M.mod4 (sswu1_const M hP h11) hu
  have h0 : Y ≠ 0 := fun e0 => g1_ne M (absc (A1 K.p) (B1 K.p) 11 v) (by rw [← hY, e0, mul_zero])
  exact ⟨x, y, l, k, Y, e, hl, hk, hx, hy, by rw [pow_two]; exact hY, h0, hs h0⟩

/-- C66. The simplified SWU maps of BLS12-381 (64-bit): to the curve that is 11-isogenous to G1 … -/
theorem C66_sswu_fp : ∃ (_ : Fact bls381_64g.pair.rom.p.Prime), SswuMaps1 bls381_64g.pair.rom := by
  obtain ⟨hp, h4, lam, h⟩ := facts64 bls381_64g (by simp [gls64])
  exact ⟨hp, sswuMaps1_of (map64 h).one map64B.1 h11_64⟩

theorem sswuMaps2_of {C : Nat} {K : PairRom C} [Fact K.rom.p.Prime] [Fact (K.rom.p % 4 = 3)] (M : MapCurve2 K) : SswuMaps2 K.rom := by
  intro e u v hu
  obtain ⟨s1, s2⟩ := sswu2_ok M.twist.tower M.one.wide M.twist.len (sswu2_const M) (g2_ne M) hu
  refine ⟨fun hx => s1 ((not_detected M _).2 hx), fun hx => ?_⟩
  obtain ⟨x, y, d, Y, e1, k1, k2, k3, k4, k5, k6⟩ := s2 (not_not.1 fun e => hx ((not_detected M _).1 e))
  exact ⟨x, y, d, Y, e1, k3, k4, by rw [pow_two, k5], k6⟩

/-- … and to the curve that is 3-isogenous to the twist, where it panics exactly on the elements of `Exc2`, which are not void -/
theorem C66_sswu_fp2 : ∃ (_ : Fact bls381_64g.pair.rom.p.Prime) (_ : Fact (bls381_64g.pair.rom.p % 4 = 3)), SswuMaps2 bls381_64g.pair.rom ∧
    Exc2 bls381_64g.pair.rom.p (castN2 bls381_64g.pair.rom.p u3) := by
  obtain ⟨hp, h4, lam, h⟩ := facts64 bls381_64g (by simp [gls64])
  exact ⟨hp, h4, sswuMaps2_of (map64 h), exc2 map64B.1⟩

/-! ### C67 -/

/-- what C67 says about G1: outside of the kernel of the isogeny, the result is the point that RFC 9380 prescribes; inside, it is `(0 : 0 : 0)`, which denotes no point -/
def MapsG1 {C : Nat} (K : Rom C) [Fact K.p.Prime] : Prop :=
  ∀ (u : Fp C) (v : ZMod K.p), Elem K.P K.p 0 1 u v → (v ≠ 0 → Fp.sgn0 K.P u = decide (v.val % 2 = 1)) ∧
    ∃ s, mapToCurveG1 K u = some s ∧
      (¬ Exc1 K.p v → ∃ Q : (curve K).Point, IsPoint K s Q ∧ Image1 v (Fp.sgn0 K.P u) Q) ∧
      (Exc1 K.p v → coords K s = ⟨0, 0, 0⟩ ∧ ∀ Q : (curve K).Point, ¬ IsPoint K s Q)

/-- what C67 says about G2: a panic on the elements of `Exc2`, otherwise the point that RFC 9380 prescribes -/
def MapsG2 {C : Nat} (K : PairRom C) [Fact K.rom.p.Prime] [Fact (K.rom.p % 4 = 3)] : Prop :=
  ∀ (e : Nat) (u : Fp2 C) (v : F2 K.rom.p), Rel2 K.rom.P K.rom.p ⟨0, 1, e⟩ u v → (v ≠ 0 → Fp2.sgn0 K.rom.P u = sign2 v) ∧
    (Exc2 K.rom.p v → mapToCurveG2 K.rom u = none) ∧
    (¬ Exc2 K.rom.p v → ∃ s, mapToCurveG2 K.rom u = some s ∧ ∃ Q : (curve2 K).Point, IsPoint2 K 3 s Q ∧ Image2 v (Fp2.sgn0 K.rom.P u) Q)

theorem mapsG1_of {C : Nat} {K : Rom C} [Fact K.p.Prime] (M : MapCurve K) (hP : K.p = Pair.p381) (h11 : (11 : Int) < 2 ^ K.P.b) : MapsG1 K :=
  fun _ _ hu => ⟨sgn0_ex M.tower hu, map1_ok M hP h11 hu⟩

theorem mapsG2_of {C : Nat} {K : PairRom C} [Fact K.rom.p.Prime] [Fact (K.rom.p % 4 = 3)] (M : MapCurve2 K) (hP : K.rom.p = Pair.p381) : MapsG2 K := by
  intro e u v hu
  obtain ⟨h1, h2⟩ := map2_ok M hP hu
  exact ⟨C59_sgn0 M.twist.tower (std2_iff.2 hu), fun hx => h1 ((not_detected M _).2 hx), fun hx => h2 (not_not.1 fun e => hx ((not_detected M _).1 e))⟩

/-- a number below the modulus as an element, built as a caller would: bytes, `BIG::frombytes`, `FP::new_big` -/
def mkFp {C : Nat} (K : Rom C) (bytes : List Byte) : Fp C := newBig K.P (fromBytes K.P.b K.P.n K.modbytes bytes)

theorem mkFp_std {C : Nat} {K : Rom C} [hp : Fact K.p.Prime] (h : TowerOk K.P K.p) (hb : BlsCurve K) (n : Nat) (hn : n < K.p) :
    Std K.P K.p 2 (mkFp K (beBytes K.modbytes n)) (n : ZMod K.p) := by
  have hs := hb.dh.spare
  have hr := fromBytes_rep hb.dh.mont.ok hb.dh.mont.hn K.modbytes (by omega) (beBytes K.modbytes n)
  have hf := hb.flags
  rw [List.take_of_length_le (le_of_eq (Spec.beBytes_length _ _)), Spec.beNat_beBytes, Nat.mod_eq_of_lt (by omega)] at hr
  exact std_newBig h hr hn

theorem mkFp_lt : u11 < bls381_64g.pair.rom.p ∧ u3.1 < bls381_64g.pair.rom.p ∧ u3.2 < bls381_64g.pair.rom.p := by decide +kernel

/-- C67. `map_to_curve_g1` (64-bit), and an input on which it returns `(0 : 0 : 0)` -/
theorem C67_map_g1 : ∃ (_ : Fact bls381_64g.pair.rom.p.Prime), MapsG1 bls381_64g.pair.rom ∧
    ∃ s, mapToCurveG1 bls381_64g.pair.rom (mkFp bls381_64g.pair.rom (beBytes bls381_64g.pair.rom.modbytes u11)) = some s ∧
      ∀ Q : (curve bls381_64g.pair.rom).Point, ¬ IsPoint bls381_64g.pair.rom s Q := by
  obtain ⟨hp, h4, lam, h⟩ := facts64 bls381_64g (by simp [gls64])
  have M := (map64 h).one
  have m := mapsG1_of M map64B.1 h11_64
  refine ⟨hp, m, ?_⟩
  obtain ⟨_, s, e, _, h2⟩ := m _ _ (mkFp_std M.tower M.bls u11 mkFp_lt.1).1
  exact ⟨s, e, (h2 (exc1 map64B.1)).2⟩

/-- C67. `map_to_curve_g2` (64-bit), and an input on which it panics -/
theorem C67_map_g2 : ∃ (_ : Fact bls381_64g.pair.rom.p.Prime) (_ : Fact (bls381_64g.pair.rom.p % 4 = 3)), MapsG2 bls381_64g.pair ∧
    mapToCurveG2 bls381_64g.pair.rom ⟨mkFp bls381_64g.pair.rom (beBytes bls381_64g.pair.rom.modbytes u3.1), mkFp bls381_64g.pair.rom (beBytes bls381_64g.pair.rom.modbytes u3.2)⟩ = none := by
  obtain ⟨hp, h4, lam, h⟩ := facts64 bls381_64g (by simp [gls64])
  have M := map64 h
  have m := mapsG2_of M map64B.1
  refine ⟨hp, h4, m, ?_⟩
  have s1 := mkFp_std M.one.tower M.one.bls u3.1 mkFp_lt.2.1
  have s2 := mkFp_std M.one.tower M.one.bls u3.2 mkFp_lt.2.2
  exact (m _ _ _ (std2_iff.1 ⟨s1, s2⟩)).2.1 (exc2 map64B.1)

/-! ### C68 -/

/-- what C68 says about G1 -/
def HashesG1 {C : Nat} (K : Rom C) [Fact K.p.Prime] (c r : Nat) : Prop :=
  ∀ msg dst : List Byte, ∃ bytes, Spec.H2c.expand (Spec.Sha2.digest Spec.Sha2.SHA256) 32 64 msg 128 dst = some bytes ∧
    (¬ Exc1 K.p (num64 bytes 0 : ZMod K.p) → ¬ Exc1 K.p (num64 bytes 1 : ZMod K.p) →
      ∃ R, hashToCurveG1 K msg dst = some R ∧ ∃ Q0 Q1 : (curve K).Point,
        Image1 (num64 bytes 0 : ZMod K.p) (decide ((num64 bytes 0 : ZMod K.p).val % 2 = 1)) Q0 ∧
        Image1 (num64 bytes 1 : ZMod K.p) (decide ((num64 bytes 1 : ZMod K.p).val % 2 = 1)) Q1 ∧
        IsPoint K R (c • (Q0 + Q1)) ∧ r • c • (Q0 + Q1) = 0)

/-- what C68 says about G2 -/
def HashesG2 {C : Nat} (K : GlsRom C) [Fact K.pair.rom.p.Prime] [Fact (K.pair.rom.p % 4 = 3)] (c r : Nat) : Prop :=
  ∀ msg dst : List Byte, ∃ bytes, Spec.H2c.expand (Spec.Sha2.digest Spec.Sha2.SHA256) 32 64 msg 256 dst = some bytes ∧
    (Exc2 K.pair.rom.p (elem2 K.pair.rom.p bytes 0) ∨ Exc2 K.pair.rom.p (elem2 K.pair.rom.p bytes 1) → hashToCurveG2 K msg dst = none) ∧
    (¬ Exc2 K.pair.rom.p (elem2 K.pair.rom.p bytes 0) → ¬ Exc2 K.pair.rom.p (elem2 K.pair.rom.p bytes 1) →
      ∃ R, hashToCurveG2 K msg dst = some R ∧ ∃ Q0 Q1 : (curve2 K.pair).Point,
        Image2 (elem2 K.pair.rom.p bytes 0) (sign2 (elem2 K.pair.rom.p bytes 0)) Q0 ∧ Image2 (elem2 K.pair.rom.p bytes 1) (sign2 (elem2 K.pair.rom.p bytes 1)) Q1 ∧
        IsPoint2 K.pair 22 R (c • (Q0 + Q1)) ∧ r • c • (Q0 + Q1) = 0)

/-- C68. `hash_to_curve_g1` (64-bit): expansion, reduction, mapping, addition and multiplication by the effective cofactor of RFC 9380, 8.8.1 -/
theorem C68_hash_g1 : ∃ (_ : Fact bls381_64g.pair.rom.p.Prime), HashesG1 bls381_64g.pair.rom 0xd201000000010001 r381 := by
  obtain ⟨hp, h4, lam, h⟩ := facts64 bls381_64g (by simp [gls64])
  have M := (map64 h).one
  have hc := (bls381_of h b381_64.1 b381_64.2).2.2.2.1
  exact ⟨hp, fun msg dst => hashG1_ok M map64B.1 h11_64 (hEffG1_rep M.bls) hc msg dst⟩

/-- cofactor clearing in G2 is multiplication by the effective cofactor of RFC 9380, 8.8.2 -/
theorem C68_heff {C : Nat} {K : GlsRom C} [hp : Fact K.pair.rom.p.Prime] [h4 : Fact (K.pair.rom.p % 4 = 3)] {lam : Int} (h : PairFacts K lam) (hg : genCheck K.pair = true)
    (hb : b381B K = true) {s : Pt2 C} {T : (curve2 K.pair).Point} (hs : IsPoint2 K.pair 202 s T) :
    ∃ R, clearCofactor K s = some R ∧ IsPoint2 K.pair 22 R (hEff2 • T) ∧ r381 • hEff2 • T = 0 := by
  have hb' := hb
  unfold b381B at hb'
  dsimp only at hb'
  simp only [Bool.and_eq_true, decide_eq_true_eq, beq_iff_eq] at hb'
  obtain ⟨⟨⟨⟨⟨⟨⟨⟨⟨hp', hr', hI, hm, hx, hbn, hz⟩, r1⟩, r2⟩, r3⟩, hu⟩, hv⟩, h2B⟩, o1⟩, o2⟩ := hb'
  have hr := h.prime
  rw [hr'] at hr
  have F := g2_facts h.tw h.fr hr hg hb
  have hX : Ecp.Scalar K.pair.rom K.pair.bnx z381 := by
    have := (repB_sound r3).1
    rw [show (limbsVal K.pair.rom.P.b K.pair.bnx).toNat = z381 from hz] at this
    refine Scalar_of h.g1.gls this ?_
    rw [hr']; decide +kernel
  have hx' : (-(z381 : Int)) = if K.pair.negx then -(z381 : Int) else z381 := by rw [if_pos hx]
  obtain ⟨R, e1, hR⟩ := clearCofactor_bls h.tw h.fr hbn hX hx' hs
  have hN2 : ∀ T : (curve2 K.pair).Point, (k381 * r381) • T = 0 := fun T => by rw [← F.card]; exact card_nsmul_eq_zero'
  have hpi : (K.pair.rom.p : Int) = (Pair.p381 : Int) := by rw [hp']
  have hc := cof_heff hN2 (F.cof T) (fun T hT => by rw [← hpi]; exact F.eig T hT)
  have h0 := F.cof T
  rw [hc] at h0
  refine ⟨R, e1, ?_, h0⟩
  rw [← hc]
  exact hR

/-- C68. `hash_to_curve_g2` (64-bit): a panic exactly where the map panics, otherwise the point of RFC 9380 -/
theorem C68_hash_g2 : ∃ (_ : Fact bls381_64g.pair.rom.p.Prime) (_ : Fact (bls381_64g.pair.rom.p % 4 = 3)), HashesG2 bls381_64g hEff2 r381 := by
  obtain ⟨hp, h4, lam, h⟩ := facts64 bls381_64g (by simp [gls64])
  exact ⟨hp, h4, fun msg dst => hashG2_ok (map64 h) map64B.1 (fun s T hs => C68_heff h b381_64.1 b381_64.2 hs) msg dst⟩

/-! ### a message that meets the hypotheses of C68 -/

def numbers (a : Option (Except Err (List Byte))) (k : Nat) : List Nat :=
  match a with
  | some (.ok b) => (List.range k).map fun i => num64 b i % Pair.p381
  | _ => []

def wu : List Nat := [0xc2573e50125563fedcade0792b33076fe4e763bb513dade87fb54aab1aa33aed1915970cc37145d996d4a031a416826, 0x17aa0602ee7ba18a40ce4cc37262ed93ba3c287eb93d164c17adb148e3fee51567340c660f36ad3d056a8434e52ec334]
def wv : List Nat := [0x2c0d60ecb5cff71b16b9d4700e2557c18b8085215ede4e3157f0cf5a574fa54d4799c22a1a5295496986126f83b549c, 0x168fb82d39d2ad23f3755b1372277c0ab6ebf60480ca430e412ff35d621b5a67ea16bb4afa633f5bd20d54a884305736, 0x2bc2239e79ac6a20b14a9de0d128d6704ebac476bd699c399f9bc3703f62b4168209e8136baead3cf5e85979f07414, 0x196ffa7526532c73f992ed046b01f6dc36295cf27520145ff736a05b4c37f6391036ee69710150e67b544e0dcedda05d]

theorem wu_ok : numbers (expandMessageXmd .sha256 [4#8] 128 [0x44#8]) 2 = wu := by decide +kernel
theorem wv_ok : numbers (expandMessageXmd .sha256 [4#8] 256 [0x44#8]) 4 = wv := by decide +kernel

theorem numbers_of {msg dst bytes : List Byte} {len k : Nat} {l : List Nat} (h : numbers (expandMessageXmd .sha256 msg len dst) k = l)
    (hb : Spec.H2c.expand (Spec.Sha2.digest Spec.Sha2.SHA256) 32 64 msg len dst = some bytes) : (List.range k).map (fun i => num64 bytes i % Pair.p381) = l := by
  have he := expand_ok .sha256 msg len dst
  rw [show Alg.sha256.length = 32 from rfl, show Alg.sha256.blockSize = 64 from rfl, show Alg.sha256.H = Spec.Sha2.digest Spec.Sha2.SHA256 from rfl, hb] at he
  dsimp only at he
  rw [he] at h
  exact h

section
variable {p : Nat} [hp : Fact p.Prime] [h4 : Fact (p % 4 = 3)]

omit h4 in
theorem not_exc1 {u r : Nat} (h : absc (A1 p) (B1 p) 11 (u : ZMod p) = (r : ZMod p)) (hr : kernel11.all (fun k => decide (r % p ≠ k % p)) = true) : ¬ Exc1 p (u : ZMod p) := by
  rintro ⟨k, hk, e⟩
  have := List.all_eq_true.1 hr k hk
  rw [decide_eq_true_eq] at this
  rw [h] at e
  exact this ((ZMod.natCast_eq_natCast_iff' _ _ _).1 e)

theorem not_exc2 {u r : Nat × Nat} (h : absc (A2 p) (B2 p) (Z2 p) (castN2 p u) = castN2 p r) (hr : (gN p r).2 % p ≠ 0) : ¬ Exc2 p (castN2 p u) := by
  rintro ⟨e, _⟩
  rw [h, ← gN_eq] at e
  exact nat_ne hr e

omit h4 in
theorem wit1 (e : p = Pair.p381) : ∀ u ∈ wu, ¬ Exc1 p (u : ZMod p) := by
  subst e
  have key : ∀ u r s : Nat, (11 * u ^ 2 % Pair.p381) ≠ 0 ∧ ((11 * u ^ 2 % Pair.p381) ^ 2 + 11 * u ^ 2 % Pair.p381) % Pair.p381 ≠ 0 ∧
      (sswuA1 * r * (((11 * u ^ 2 % Pair.p381) ^ 2 + 11 * u ^ 2 % Pair.p381) % Pair.p381) + sswuB1 * (((11 * u ^ 2 % Pair.p381) ^ 2 + 11 * u ^ 2 % Pair.p381) % Pair.p381 + 1)) % Pair.p381 = 0 ∧
      (r ^ 3 + sswuA1 * r + sswuB1) % Pair.p381 = s * s % Pair.p381 ∧ kernel11.all (fun k => decide (r % Pair.p381 ≠ k % Pair.p381)) = true → ¬ Exc1 Pair.p381 (u : ZMod Pair.p381) := by
    rintro u r s ⟨_, h0, hr, hs, hk⟩
    have hA : sswuA1 % Pair.p381 ≠ 0 := by decide +kernel
    have := absc_num (p := Pair.p381) (A := sswuA1) (B := sswuB1) (Z := 11) (u := u) (r := r) (s := s) (t := 11 * u ^ 2 % Pair.p381)
      (d := ((11 * u ^ 2 % Pair.p381) ^ 2 + 11 * u ^ 2 % Pair.p381) % Pair.p381) hA (Nat.mod_mod _ _).symm (Nat.mod_mod _ _).symm
      (by rw [Nat.mod_mod]; exact h0) hr hs
    rw [show ((11 : Nat) : ZMod Pair.p381) = 11 from Nat.cast_ofNat] at this
    exact not_exc1 this hk
  intro u hu
  simp only [wu, List.mem_cons, List.not_mem_nil, or_false] at hu
  rcases hu with rfl | rfl
  · exact key _ 0xc4d78c05a8a7011cc31643a02c08f9174c2a2d412860de63a1a8eb40ccbcb3f157a0bf3f260bf432884ac62156e74ff 0x3bcbbae2189544aedfa149046b315fe987aeae9d5ab7e731c862e4c875da0c76bf2b2dd453853d644a771ccfbafb39e (by decide +kernel)
  · exact key _ 0x5e0e0fb189a7e71055788e89b842cecdbe5f939fb8c1ca33bd7023fa81fa8b760a5a6b8b6090bd5039d735cf1673544 0xded59893741d9fd79e8858b2def10224aea751b1329df8ebb2c32c542302be9a58b3c7df60892cfe159470257a99e2b (by decide +kernel)

theorem wit2 (e : p = Pair.p381) : ∀ u ∈ [(wv[0], wv[1]), (wv[2], wv[3])], ¬ Exc2 p (castN2 p u) := by
  subst e
  have key : ∀ u r s : Nat × Nat, let t := mulN2 Pair.p381 (Pair.p381 - 2, Pair.p381 - 1) (mulN2 Pair.p381 u u)
      let d := addP Pair.p381 (mulN2 Pair.p381 t t) t
      ¬ (d.1 % Pair.p381 = 0 ∧ d.2 % Pair.p381 = 0) ∧ addP Pair.p381 (mulN2 Pair.p381 (mulN2 Pair.p381 (0, 240) r) d) (mulN2 Pair.p381 (1012, 1012) (addP Pair.p381 d (1, 0))) = (0, 0) ∧
      addP Pair.p381 (addP Pair.p381 (mulN2 Pair.p381 (mulN2 Pair.p381 r r) r) (mulN2 Pair.p381 (0, 240) r)) (1012, 1012) = mulN2 Pair.p381 s s ∧
      (gN Pair.p381 r).2 % Pair.p381 ≠ 0 → ¬ Exc2 Pair.p381 (castN2 Pair.p381 u) := by
    rintro u r s t d ⟨h0, hr, hs, hk⟩
    have := absc_num2 (p := Pair.p381) (A := (0, 240)) (B := (1012, 1012)) (Z := (Pair.p381 - 2, Pair.p381 - 1)) (u := u) (t := t) (d := d) (r := r) (s := s)
      (castN2_ne (by decide +kernel)) rfl rfl (castN2_ne h0) hr hs
    rw [← A2_cast, ← B2_cast, ← Z2_cast (by decide +kernel)] at this
    exact not_exc2 this hk
  intro u hu
  simp only [List.mem_cons, List.not_mem_nil, or_false] at hu
  rcases hu with rfl | rfl
  · exact key _ (0xd2be9282efcef348a7bdc98817b63b186d15f132cd6b4820742ebd507905447d86f6d12b87763750ce4eec97fc40ab4, 0x5ed88264acabdba3048b1ae2efc5203235de7dc3ac2ff0f7399dc0a7e1394666aced7e501c449d56b8205ed5a816dd6) (0x1387597e2a35a98e91ecd7d8c65c522e9964ece47a9d0a709944e67f7a4e4963d093408879b6f622390168f5f1a16a92, 0x3c40a9cddb21050262f6ab5142df1e8c6ef5cb355f5c1137dc04cbb97ec3d5adf593dfcf5feaa1c9ce84da82c5b1f3c) (by decide +kernel)
  · exact key _ (0x179bd7266fc071da09e86beea49c1cf05fce18b19e0f400d40d68b6bf58a7ec2be42cc965197ebb8f53b977f52c1aa82, 0x70927652fdf3f651ae6395709babe6b0c3ee9111310f0e326a01e24435e9cdba59c0ff03e021be5bcf323437cc73a64) (0x12359d0479f0924b6864ce586c08929acb2655e50d1c4315826386db233a85c67e2991124a0ada04b80789e45405c50, 0x6ff08feb2edf05fdbbbce72e6edb8f7a3122f48af71110925888a8bf97b7ca4ffe2b64dbc357229fa1be60a4232c7f9) (by decide +kernel)

end

/-- the one-byte message `04` with tag `44` is hashed to points of the prime-order groups -/
theorem C68_reached : ∃ (_ : Fact bls381_64g.pair.rom.p.Prime) (_ : Fact (bls381_64g.pair.rom.p % 4 = 3)),
    (∃ R T, hashToCurveG1 bls381_64g.pair.rom [4#8] [0x44#8] = some R ∧ IsPoint bls381_64g.pair.rom R T ∧ r381 • T = 0) ∧
    (∃ R T, hashToCurveG2 bls381_64g [4#8] [0x44#8] = some R ∧ IsPoint2 bls381_64g.pair 22 R T ∧ r381 • T = 0) := by
  obtain ⟨hp, q1⟩ := C68_hash_g1
  obtain ⟨_, h4, q2⟩ := C68_hash_g2
  refine ⟨hp, h4, ?_, ?_⟩
  · obtain ⟨bytes, hb, h⟩ := q1 [4#8] [0x44#8]
    have hn := numbers_of wu_ok hb
    rw [range2] at hn
    have w := wit1 map64B.1
    rw [← hn] at w
    have c : ∀ n : Nat, ((n % Pair.p381 : Nat) : ZMod bls381_64g.pair.rom.p) = (n : ZMod bls381_64g.pair.rom.p) := fun n => by
      refine nat_eq ?_
      rw [map64B.1, Nat.mod_mod]
    have w0 := w _ (List.mem_cons_self ..)
    have w1 := w _ (List.mem_cons_of_mem _ (List.mem_cons_self ..))
    rw [c] at w0 w1
    obtain ⟨R, e, Q0, Q1, _, _, hR, h0⟩ := h w0 w1
    exact ⟨R, _, e, hR, h0⟩
  · obtain ⟨bytes, hb, _, h⟩ := q2 [4#8] [0x44#8]
    have hn := numbers_of wv_ok hb
    have w := wit2 map64B.1
    have c : ∀ n : Nat, ((n % Pair.p381 : Nat) : ZMod bls381_64g.pair.rom.p) = (n : ZMod bls381_64g.pair.rom.p) := fun n => by
      refine nat_eq ?_
      rw [map64B.1, Nat.mod_mod]
    have hr4 : List.range 4 = [0, 1, 2, 3] := rfl
    rw [hr4, List.map_cons, List.map_cons, List.map_cons, List.map_cons, List.map_nil] at hn
    simp only [← hn, List.getElem_cons_zero, List.getElem_cons_succ] at w
    have w0 := w _ (List.mem_cons_self ..)
    have w1 := w _ (List.mem_cons_of_mem _ (List.mem_cons_self ..))
    unfold castN2 at w0 w1
    rw [c, c] at w0 w1
    obtain ⟨R, e, Q0, Q1, _, _, hR, h0⟩ := h w0 w1
    exact ⟨R, _, e, hR, h0⟩

end Verif.Props
