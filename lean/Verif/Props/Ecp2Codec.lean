import Verif.Gt.Codec
import Verif.Bls.G2Dec
/-
C83: `ECP2::tobytes` and `ECP2::frombytes`.
-/
namespace Verif.Props
open Verif.Big Verif.Fp Verif.Rom Verif.Curve Verif.Tower Verif.Ecp2 Verif.Pair Verif.Gt Verif.Bls Spec WeierstrassCurve
set_option linter.unusedSectionVars false
set_option exponentiation.threshold 600

/-- the encoding of two elements of the extension of degree 2: the four coefficients, most significant byte first -/
def enc22 {p : Nat} (mb : Nat) (x y : F2 p) : List (BitVec 8) := [x.re.val, x.im.val, y.re.val, y.im.val].flatMap (beBytes mb)

/-- What C83 says about one ROM file.
1. `tobytes` of a finite point writes its affine coordinates and leaves the rest of the buffer alone.
2. `frombytes` of the encoding of a finite point, whatever follows, gives that point back, in a form 1 applies to.
3. `frombytes` of four numbers below the modulus that do not satisfy the equation of the twist gives the point at infinity.
4. `tobytes` after `frombytes` reproduces the encoding of a point.
5. Both refuse (panic on) less than four blocks. -/
def Codec2Ok {C : Nat} (K : PairRom C) [Fact K.rom.p.Prime] [Fact (K.rom.p % 4 = 3)] : Prop :=
  let mb := K.rom.modbytes
  (∀ (e : Nat) (s : Pt2 C) (x y : F2 K.rom.p) (hh) (buf : List (BitVec 8)), 2 ≤ e → IsPoint2 K e s (Affine.Point.some x y hh) → Faithful2 K s → 4 * mb ≤ buf.length →
    Ecp2.tobytes K s buf = some (enc22 mb x y ++ buf.drop (4 * mb))) ∧
  (∀ (x y : F2 K.rom.p) (hh) (rest : List (BitVec 8)), ∃ s, Ecp2.frombytes K (enc22 mb x y ++ rest) = some s ∧ IsPoint2 K 2 s (Affine.Point.some x y hh) ∧ Faithful2 K s) ∧
  (∀ (x y : F2 K.rom.p) (rest : List (BitVec 8)), y ^ 2 ≠ x ^ 3 + Btw K → ∃ s, Ecp2.frombytes K (enc22 mb x y ++ rest) = some s ∧ IsPoint2 K 2 s 0) ∧
  (∀ (x y : F2 K.rom.p) (_ : (curve2 K).Nonsingular x y) (rest buf : List (BitVec 8)), 4 * mb ≤ buf.length →
    ∃ s, Ecp2.frombytes K (enc22 mb x y ++ rest) = some s ∧ Ecp2.tobytes K s buf = some (enc22 mb x y ++ buf.drop (4 * mb))) ∧
  ∀ w : List (BitVec 8), w.length < 4 * mb → Ecp2.frombytes K w = none ∧ ∀ s, Ecp2.tobytes K s w = none

section
variable {C : Nat} {K : PairRom C} [hp : Fact K.rom.p.Prime] [h4 : Fact (K.rom.p % 4 = 3)]

theorem bytes2_gen (h : TCurve K) {d : Lz} (hd : d.l < K.rom.P.n ∧ d.k < K.rom.P.n) {x : Fp2 C} {v : F2 K.rom.p} (hx : Rel2 K.rom.P K.rom.p d x v) (ha : Clean K.rom.P K.rom.p x.a) (hb : Clean K.rom.P K.rom.p x.b) :
    toBytes K.rom.P.b K.rom.modbytes (Fp2.geta K.rom.P x) = beBytes K.rom.modbytes v.re.val ∧ toBytes K.rom.P.b K.rom.modbytes (Fp2.getb K.rom.P x) = beBytes K.rom.modbytes v.im.val :=
  ⟨Ecp.toBytes_rep (K := K.rom) h.tower.toConsts (redc_clean h.tower hd.1 hd.2 hx.re.el (Or.inr ha)),
    Ecp.toBytes_rep (K := K.rom) h.tower.toConsts (redc_clean h.tower hd.1 hd.2 hx.im.el (Or.inr hb))⟩

theorem tobytes2_ok (h : TCurve K) {e : Nat} {s : Pt2 C} {x y : F2 K.rom.p} {hh} (he : 2 ≤ e) (hs : IsPoint2 K e s (Affine.Point.some x y hh)) (hf : Faithful2 K s)
    {buf : List (BitVec 8)} (hb : 4 * K.rom.modbytes ≤ buf.length) : Ecp2.tobytes K s buf = some (enc22 K.rom.modbytes x y ++ buf.drop (4 * K.rom.modbytes)) := by
  have hc := affine_clean h hs hf
  obtain ⟨rx, ry⟩ := affine_rels h hs he
  have hn := h.len
  obtain ⟨a1, a2⟩ := bytes2_gen h ⟨by simp; omega, by simp; omega⟩ rx hc.xa hc.xb
  obtain ⟨b1, b2⟩ := bytes2_gen h ⟨by simp; omega, by simp; omega⟩ ry hc.ya hc.yb
  unfold Ecp2.tobytes
  dsimp only
  rw [if_neg (by omega), a1, a2, b1, b2]
  unfold enc22
  simp only [List.flatMap_cons, List.flatMap_nil, List.append_nil, List.append_assoc]

theorem frombytes2_ok (h : TCurve K) (hb : bytesB K = true) (x y : F2 K.rom.p) (rest : List (BitVec 8)) :
    ∃ X Y : Fp2 C, Ecp2.frombytes K (enc22 K.rom.modbytes x y ++ rest) = some (newFp2s K X Y) ∧ Std2 K.rom.P K.rom.p 2 X x ∧ Std2 K.rom.P K.rom.p 2 Y y ∧ Faithful2 K (newFp2s K X Y) := by
  unfold bytesB at hb
  simp only [Bool.and_eq_true, decide_eq_true_eq] at hb
  obtain ⟨⟨b1, b2⟩, b3⟩ := hb
  have blk := flat_block K.rom.modbytes rest [x.re.val, x.im.val, y.re.val, y.im.val]
  have rd : ∀ (i : Nat) (v : ZMod K.rom.p), (((enc22 K.rom.modbytes x y ++ rest).drop (i * K.rom.modbytes)).take K.rom.modbytes) = beBytes K.rom.modbytes v.val →
      Rep K.rom.P.b K.rom.P.n (fromBytes (C := C) K.rom.P.b K.rom.P.n K.rom.modbytes (((enc22 K.rom.modbytes x y ++ rest).drop (i * K.rom.modbytes)).take K.rom.modbytes)) ((v.val : Nat) : Int) := by
    intro i v hv
    have := fromBytes_rep (C := C) h.tower.arith.ok h.tower.arith.hn K.rom.modbytes b1 (((enc22 K.rom.modbytes x y ++ rest).drop (i * K.rom.modbytes)).take K.rom.modbytes)
    rwa [List.take_take, Nat.min_self, hv, Spec.beNat_beBytes, Nat.mod_eq_of_lt (lt_trans (ZMod.val_lt v) b2), ← hv] at this
  have r0 := rd 0 x.re (blk 0 (by simp))
  have r1 := rd 1 x.im (blk 1 (by simp))
  have r2 := rd 2 y.re (blk 2 (by simp))
  have r3 := rd 3 y.im (blk 3 (by simp))
  have sx := std2_newBigs h.tower r0 (ZMod.val_lt _) r1 (ZMod.val_lt _)
  have sy := std2_newBigs h.tower r2 (ZMod.val_lt _) r3 (ZMod.val_lt _)
  have cx0 := clean_newBig h.tower r0 (ZMod.val_lt _)
  have cx1 := clean_newBig h.tower r1 (ZMod.val_lt _)
  have cy0 := clean_newBig h.tower r2 (ZMod.val_lt _)
  have cy1 := clean_newBig h.tower r3 (ZMod.val_lt _)
  have ex : (⟨(x.re.val : ZMod K.rom.p), (x.im.val : ZMod K.rom.p)⟩ : F2 K.rom.p) = x := by simp only [ZMod.natCast_val, ZMod.cast_id', id]
  have ey : (⟨(y.re.val : ZMod K.rom.p), (y.im.val : ZMod K.rom.p)⟩ : F2 K.rom.p) = y := by simp only [ZMod.natCast_val, ZMod.cast_id', id]
  rw [ex] at sx
  rw [ey] at sy
  refine ⟨_, _, ?_, sx, sy, ?_⟩
  · unfold Ecp2.frombytes
    dsimp only
    rw [if_neg]
    rw [List.length_append]
    unfold enc22
    rw [flat_length]
    simp only [List.length_cons, List.length_nil]
    omega
  · unfold newFp2s
    dsimp only
    split_ifs with hc
    · intro _
      exact ⟨clean_norm h.tower sx.1.1 cx0, clean_norm h.tower sx.2.1 cx1, cy0, cy1⟩
    · intro hz
      have e : residue K.rom.P K.rom.p (Fp.zero K.rom.P) = 0 := (zero_ex h.tower.toConsts).el.res
      exact absurd (e.symm.trans hz.1) zero_ne_one

theorem codec2Ok_of (h : TCurve K) (hb : bytesB K = true) : Codec2Ok K := by
  have key : ∀ (x y : F2 K.rom.p) (hh) (rest : List (BitVec 8)), ∃ s, Ecp2.frombytes K (enc22 K.rom.modbytes x y ++ rest) = some s ∧ IsPoint2 K 2 s (Affine.Point.some x y hh) ∧ Faithful2 K s := by
    intro x y hh rest
    obtain ⟨X, Y, h1, h2, h3, hf⟩ := frombytes2_ok h hb x y rest
    obtain ⟨hh', hp'⟩ := (newFp2s_ok h (std2_iff.1 h2) le_rfl (std2_iff.1 h3) le_rfl (by norm_num)).1 (by
      have := hh.1
      rw [Affine.equation_iff] at this
      simpa [curve2, short] using this)
    exact ⟨_, h1, hp', hf⟩
  refine ⟨fun e s x y hh buf he hs hf hl => tobytes2_ok h he hs hf hl, key, ?_, ?_, ?_⟩
  · intro x y rest hne
    obtain ⟨X, Y, h1, h2, h3, hf⟩ := frombytes2_ok h hb x y rest
    exact ⟨_, h1, (newFp2s_ok h (std2_iff.1 h2) le_rfl (std2_iff.1 h3) le_rfl (by norm_num)).2 hne⟩
  · intro x y hh rest buf hl
    obtain ⟨s, h1, h2, h3⟩ := key x y hh rest
    exact ⟨s, h1, tobytes2_ok h le_rfl h2 h3 hl⟩
  · intro w hw
    constructor
    · unfold Ecp2.frombytes; dsimp only; rw [if_pos hw]
    · intro s; unfold Ecp2.tobytes; dsimp only; rw [if_pos hw]
end

/-- C83, every bundled curve of embedding degree 12, 64-bit -/
theorem C83_ecp2_codec64 (K : GlsRom 64) (hK : K ∈ gls64) : ∃ (_ : Fact K.pair.rom.p.Prime) (_ : Fact (K.pair.rom.p % 4 = 3)), Codec2Ok K.pair := by
  obtain ⟨hp, h4, lam, h⟩ := facts64 K hK
  exact ⟨hp, h4, codec2Ok_of h.tw (List.all_eq_true.1 bytesB64 K hK)⟩

/-- C83, 32-bit; the representation must have 19 bits to spare -/
theorem C83_ecp2_codec32 (K : GlsRom 32) (hK : K ∈ gls32) (hh : 2 ^ 19 * K.pair.rom.p ≤ 2 ^ (K.pair.rom.P.b * K.pair.rom.P.n)) :
    ∃ (_ : Fact K.pair.rom.p.Prime) (_ : Fact (K.pair.rom.p % 4 = 3)), Codec2Ok K.pair := by
  obtain ⟨hp, h4, lam, h⟩ := facts32 K hK hh
  exact ⟨hp, h4, codec2Ok_of h.tw (List.all_eq_true.1 bytesB32 K hK)⟩

/-- the hypotheses can be met: the generator of the second group, decoded from its encoding, is a finite point in the form 1 and 4 speak about -/
example (K : GlsRom 64) (hK : K ∈ gls64) : ∃ (_ : Fact K.pair.rom.p.Prime) (_ : Fact (K.pair.rom.p % 4 = 3)) (s : Pt2 64) (x y : F2 K.pair.rom.p) (hh : (curve2 K.pair).Nonsingular x y),
    IsPoint2 K.pair 2 s (Affine.Point.some x y hh) ∧ Faithful2 K.pair s ∧ rN K.pair • (Affine.Point.some x y hh : (curve2 K.pair).Point) = 0 := by
  obtain ⟨hp, h4, lam, h⟩ := facts64 K hK
  obtain ⟨G, g1, g2, g3, _⟩ := h.gen2
  cases G with
  | zero => exact absurd rfl g2
  | some x y hh =>
    obtain ⟨s, _, s2, s3⟩ := (codec2Ok_of h.tw (List.all_eq_true.1 bytesB64 K hK)).2.1 x y hh []
    exact ⟨hp, h4, s, x, y, hh, s2, s3, g3⟩

end Verif.Props
