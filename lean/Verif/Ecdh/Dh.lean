import Verif.Ecdh.PubKey
import Verif.Spec.Dh
import Verif.Ecp.Codec
import Verif.Ecp.Law
import Verif.Ecp.Points
import Verif.Big.Rand
import Verif.Big.Inverse
import Verif.Big.Modular
import Verif.Ecdh.Lemmas
/- Helper lemmas: Diffie-Hellman and ECDSA. -/
namespace Verif.Ecdh
open Verif.Big Verif.Fp Verif.Rom Verif.Curve Verif.Ecp Spec WeierstrassCurve

variable {C : Nat} {K : Rom C} [hp : Fact K.p.Prime]

theorem DhCurve.consts (h : DhCurve K) : Consts K.P K.p := h.mont.toConsts

theorem DhCurve.R_lt (h : DhCurve K) : 2 * (ordN K : Int) < 2 ^ (K.P.b * K.P.n) := by
  have h1 := h.orderRange
  have hb := h.consts.ok.hb
  have hn := h.consts.hn
  have h2 : 4 ≤ K.P.b * K.P.n := by nlinarith
  have e : (2 : Nat) ^ (K.P.b * K.P.n) = 16 * 2 ^ (K.P.b * K.P.n - 4) := by
    rw [show (16 : Nat) = 2 ^ 4 by norm_num, ← pow_add]; congr 1; omega
  have : 2 * ordN K < 2 ^ (K.P.b * K.P.n) := by rw [e]; omega
  exact_mod_cast this

theorem DhCurve.R_pos (h : DhCurve K) : 1 < ordN K := h.orderPrime.one_lt

/-- a normalised number below the order, after another normalisation -/
theorem rep_norm (h : DhCurve K) {x : Limbs C} {X : Int} (hx : Rep K.P.b K.P.n x X) (h0 : 0 ≤ X) (h1 : 2 * X < 2 ^ (K.P.b * K.P.n)) :
    Rep K.P.b K.P.n (norm K.P.b x) X ∧ 2 * X < cap C K.P.b K.P.n := by
  have hcg := cap_ge (n := K.P.n) h.consts.ok (by have := h.consts.hn; omega)
  exact ⟨hx.norm h.consts.ok (by have := h.consts.hn; omega) (by have := cap_pos C K.P.b K.P.n; omega) (by omega), by omega⟩

theorem bytes_lt (h : DhCurve K) {X : Nat} (hX : X < 256 ^ K.modbytes) : 2 * (X : Int) < 2 ^ (K.P.b * K.P.n) := by
  have h3 : 2 * X < 2 ^ (K.P.b * K.P.n) := by
    refine lt_of_lt_of_le (Nat.mul_lt_mul_of_pos_left hX (by norm_num)) ?_
    rw [show (256 : Nat) = 2 ^ 8 by norm_num, ← pow_mul, ← pow_succ']
    exact Nat.pow_le_pow_right (by norm_num) (by have := h.spare; omega)
  exact_mod_cast h3

theorem num_lt (K : Rom C) (s : List Byte) : num K s < 256 ^ K.modbytes := by
  refine lt_of_lt_of_le (beNat_lt (s.take K.modbytes)) (Nat.pow_le_pow_right (by norm_num) ?_)
  rw [List.length_take]; omega

theorem fromBytes_ok (h : DhCurve K) (s : List Byte) : Rep K.P.b K.P.n (fromBytes (C := C) K.P.b K.P.n K.modbytes s) (num K s : Int) :=
  fromBytes_rep h.consts.ok h.consts.hn K.modbytes h.bytes.room s

theorem fuel_ge (K : Rom C) : 2 * (K.P.b * K.P.n) ≤ fuel K := by unfold fuel; omega

theorem rmod_ok (h : DhCurve K) {x : Limbs C} {X : Nat} (hx : Rep K.P.b K.P.n x (X : Int)) (hX : 2 * (X : Int) < 2 ^ (K.P.b * K.P.n)) :
    ∃ r, rmod K.P.b (fuel K) x K.order = some r ∧ Rep K.P.b K.P.n r ((X % ordN K : Nat) : Int) := by
  obtain ⟨n1, n2⟩ := rep_norm h hx (by positivity) hX
  have hR : (0 : Int) < ordN K := by have := h.R_pos; omega
  obtain ⟨r, e1, e2⟩ := rmod_spec h.consts.ok h.consts.hn (fuel K) n1 h.orderRep (by positivity) n2 hR (fuel_cap h.consts.ok h.consts.hn (fuel_ge K) n2 hR)
  exact ⟨r, e1, by rwa [Int.natCast_mod]⟩

theorem modmul_ok (h : DhCurve K) {x y : Limbs C} {X Y : Nat} (hx : Rep K.P.b K.P.n (norm K.P.b x) (X : Int)) (hX : 2 * (X : Int) < cap C K.P.b K.P.n)
    (hy : Rep K.P.b K.P.n (norm K.P.b y) (Y : Int)) (hY : 2 * (Y : Int) < cap C K.P.b K.P.n) :
    ∃ r, modmul K.P.b (fuel K) x y K.order = some r ∧ Rep K.P.b K.P.n r ((X * Y % ordN K : Nat) : Int) := by
  have hR : (0 : Int) < ordN K := by have := h.R_pos; omega
  obtain ⟨r, e1, e2⟩ := modmul_spec h.consts.ok h.consts.hn h.consts.fits (fuel K) (fuel_ge K) hx hy h.orderRep (by positivity) hX (by positivity) hY hR h.R_lt.le
  exact ⟨r, e1, by rw [Int.natCast_mod, Nat.cast_mul]; exact e2⟩

theorem modmul_ok' (h : DhCurve K) {x y : Limbs C} {X Y : Nat} (hx : Rep K.P.b K.P.n x (X : Int)) (hX : 2 * (X : Int) < 2 ^ (K.P.b * K.P.n))
    (hy : Rep K.P.b K.P.n y (Y : Int)) (hY : 2 * (Y : Int) < 2 ^ (K.P.b * K.P.n)) :
    ∃ r, modmul K.P.b (fuel K) x y K.order = some r ∧ Rep K.P.b K.P.n r ((X * Y % ordN K : Nat) : Int) := by
  obtain ⟨n1, n2⟩ := rep_norm h hx (by positivity) hX
  obtain ⟨m1, m2⟩ := rep_norm h hy (by positivity) hY
  exact modmul_ok h n1 n2 m1 m2

theorem lt_two (h : DhCurve K) {X : Nat} (hX : X < ordN K) : 2 * (X : Int) < 2 ^ (K.P.b * K.P.n) := by
  have := h.R_lt
  have : (X : Int) < ordN K := by exact_mod_cast hX
  omega

theorem mod_lt (h : DhCurve K) (X : Nat) : X % ordN K < ordN K := Nat.mod_lt _ (by have := h.R_pos; omega)

/-- the buffer after writing a number -/
theorem bigInto_ok (h : DhCurve K) {x : Limbs C} {X : Nat} (hx : Rep K.P.b K.P.n x (X : Int)) (hX : 2 * (X : Int) < 2 ^ (K.P.b * K.P.n)) (buf : List Byte)
    (hb : K.modbytes ≤ buf.length) : bigInto K x buf = some (beBytes K.modbytes X ++ buf.drop K.modbytes) := by
  unfold bigInto
  rw [if_neg (by omega), toBytes, toBytesGo_spec h.consts.ok K.modbytes _ X (rep_norm h hx (by positivity) hX).1]

theorem num_bytes (K : Rom C) {X : Nat} (hX : X < 256 ^ K.modbytes) (rest : List Byte) : num K (beBytes K.modbytes X ++ rest) = X := by
  unfold num
  rw [List.take_left' (beBytes_length _ _), beNat_beBytes, Nat.mod_eq_of_lt hX]

/-! ### the group generated by `G` -/

theorem G_ne (h : DhCurve K) : h.G ≠ 0 := fun e => some_ne_zero' h.generator e.symm

theorem R_smul (h : DhCurve K) : ordN K • h.G = 0 := h.annihilates

theorem smul_mod (h : DhCurve K) (k : Nat) : (k % ordN K) • h.G = k • h.G := by
  conv_rhs => rw [← Nat.mod_add_div k (ordN K)]
  rw [add_nsmul, mul_comm, mul_nsmul' , R_smul h, nsmul_zero, add_zero]

theorem smul_congr (h : DhCurve K) {j k : Nat} (e : (j : ZMod (ordN K)) = (k : ZMod (ordN K))) : j • h.G = k • h.G := by
  rw [← smul_mod h j, ← smul_mod h k]
  rw [(ZMod.natCast_eq_natCast_iff' _ _ _).1 e]

theorem smul_ne (h : DhCurve K) {k : Nat} (hk : ¬ ordN K ∣ k) : k • h.G ≠ 0 := by
  intro e
  have h1 := addOrderOf_dvd_of_nsmul_eq_zero e
  have h2 := addOrderOf_dvd_of_nsmul_eq_zero (R_smul h)
  rcases (Nat.dvd_prime h.orderPrime).1 h2 with h3 | h3
  · exact G_ne h (AddMonoid.addOrderOf_eq_one_iff.1 h3)
  · exact hk (h3 ▸ h1)

theorem getx_ok (h : DhCurve K) {s : Pt C} {x y : ZMod K.p} {hh} (hs : IsPoint K s (Affine.Point.some x y hh)) (hx : x ≠ 0) :
    Rep K.P.b K.P.n (getx K s) ((x.val : Nat) : Int) :=
  (mont_redc h.curve h.mont hs (fun e => absurd e hx)).1

theorem p_lt (h : DhCurve K) (x : ZMod K.p) : 2 * ((x.val : Nat) : Int) < 2 ^ (K.P.b * K.P.n) :=
  bytes_lt h (lt_trans (ZMod.val_lt x) h.bytes.fits)

theorem mulG (h : DhCurve K) {s : Pt C} {T : (Ecp.curve K).Point} (hs : IsPoint K s T) {e : Limbs C} {E : Nat} (he : Rep K.P.b K.P.n e (E : Int)) (hE : E < ordN K) :
    ∃ r, Ecp.mul K s e = some r ∧ IsPoint K r (E • T) := by
  obtain ⟨r, h1, h2⟩ := Ecp.mul_ok h.curve hs ⟨he, by have := h.orderRange; omega⟩
  exact ⟨r, h1, by rwa [natCast_zsmul] at h2⟩

/-- key generation from a scalar -/
theorem keyTail_ok (h : DhCurve K) {sc : Limbs C} {A : Nat} (hA : A < ordN K) (hsc : Rep K.P.b K.P.n sc (A : Int)) (s w : List Byte)
    (hs : K.modbytes ≤ s.length) (hw : 2 * K.modbytes + 1 ≤ w.length) {x y : ZMod K.p} {hh} (hT : A • h.G = Affine.Point.some x y hh) (hx : x ≠ 0) :
    keyPairTail K sc s w = some (beBytes K.modbytes A ++ s.drop K.modbytes, sec1U K x y ++ w.drop (2 * K.modbytes + 1)) := by
  unfold keyPairTail
  rw [bigInto_ok h hsc (lt_two h hA) s hs]
  obtain ⟨r, e1, e2⟩ := mulG h h.base hsc hA
  change IsPoint K r (A • h.G) at e2
  rw [hT] at e2
  have e3 := (tobytes_gen h.curve (mont_redc h.curve h.mont e2 (fun e => absurd e hx)).1 (mont_redc h.curve h.mont e2 (fun e => absurd e hx)).2 w).1 hw
  simp only [Option.bind_eq_bind, Option.bind_some, e1, e3, Option.pure_def]

end Verif.Ecdh
