import Verif.Bls.Model
import Verif.Bls.ExpandOk
import Verif.Spec.Bls
import Verif.Ecdh.Dh
import Verif.Props.Hash
/- Secret keys. -/
namespace Verif.Bls
open Verif.Big Verif.Fp Verif.Rom Verif.Curve Verif.Ecp Verif.Ecdh Verif.H2c Spec WeierstrassCurve

variable {C : Nat} {K : Rom C} [hp : Fact K.p.Prime]

theorem toBytes_eq (h : DhCurve K) {x : Limbs C} {X : Nat} (hx : Rep K.P.b K.P.n x (X : Int)) (hX : 2 * (X : Int) < 2 ^ (K.P.b * K.P.n)) :
    toBytes K.P.b K.modbytes x = beBytes K.modbytes X := by
  rw [toBytes, toBytesGo_spec h.consts.ok K.modbytes _ X (rep_norm h hx (by positivity) hX).1]

/-- `secret_key_to_bytes` -/
theorem skTo_ok (h : BlsCurve K) {x : Limbs C} {X : Nat} (hx : Rep K.P.b K.P.n x (X : Int)) (hX : 2 * (X : Int) < 2 ^ (K.P.b * K.P.n)) :
    secretKeyToBytes K x = some (beBytes 32 X) := by
  have hs := h.size
  unfold secretKeyToBytes skBytes
  rw [if_neg (by omega), toBytes_eq h.dh hx hX, ← hs]
  rw [show 48 = 16 + 32 by norm_num, beBytes_add, show 16 + 32 - 32 = 16 by norm_num, List.drop_left' (beBytes_length _ _)]

theorem beNat_zeros (n : Nat) (bs : List Byte) : beNat (List.replicate n 0 ++ bs) = beNat bs := by
  rw [beNat_append]
  have : beNat (List.replicate n (0 : Byte)) = 0 := by
    rw [zpad_eq, beNat_beBytes]; simp
  rw [this]; simp

/-- `secret_key_from_bytes` -/
theorem skFrom_ok (h : BlsCurve K) (bs : List Byte) :
    (bs.length ≠ 32 → secretKeyFromBytes K bs = some (.error .invalidSecretKeySize)) ∧
    (bs.length = 32 → ordN K ≤ beNat bs → secretKeyFromBytes K bs = some (.error .invalidSecretKeyRange)) ∧
    (bs.length = 32 → beNat bs < ordN K → ∃ sk, secretKeyFromBytes K bs = some (.ok sk) ∧ Rep K.P.b K.P.n sk (beNat bs : Int)) := by
  have hs := h.size
  have hr : Rep K.P.b K.P.n (fromBytes (C := C) K.P.b K.P.n K.modbytes (List.replicate (K.modbytes - 32) 0 ++ bs))
      ((beNat ((List.replicate (K.modbytes - 32) 0 ++ bs).take K.modbytes) : Nat) : Int) := fromBytes_ok h.dh _
  have hc := Rep.comp_ge hr h.dh.orderRep
  refine ⟨fun hl => ?_, fun hl hge => ?_, fun hl hlt => ?_⟩
  · simp [secretKeyFromBytes, skBytes, hl]
  all_goals
    have ht : beNat ((List.replicate (K.modbytes - 32) 0 ++ bs).take K.modbytes) = beNat bs := by
      rw [List.take_of_length_le (by simp; omega), beNat_zeros]
    rw [ht] at hr hc
    simp only [secretKeyFromBytes, skBytes, hl, ne_eq, not_true_eq_false, if_false, if_neg (show ¬ K.modbytes < 32 by omega)]
  · rw [if_pos (hc.mpr (by exact_mod_cast hge))]
  · rw [if_neg (fun e => absurd (hc.mp e) (by push Not; exact_mod_cast hlt))]
    exact ⟨_, rfl, hr⟩

/-- `key_generate` -/
theorem keyGen_ok (h : BlsCurve K) (ikm info : List Byte) : keyGenerate K ikm info = some (beBytes 32 (keyGen (ordN K) ikm info)) := by
  have hs := h.size
  unfold keyGenerate keyGen
  have e1 : keySalt = ("BLS-SIG-KEYGEN-SALT-".toList).map fun c => BitVec.ofNat 8 c.toNat := by decide +kernel
  have e2 : ([0] : List Byte) = beBytes 1 0 := by decide
  have e3 : ([0, keyL] : List Byte) = beBytes 2 48 := by decide
  have e4 : keyL.toNat = 48 := by decide
  dsimp only
  rw [Props.C21_hkdf_extract_sha256, Props.C21_hkdf_expand_sha256, e3, e2, e1, e4]
  have hlen : (Spec.hkdfExpand (Spec.hmac (Spec.Sha2.digest Spec.Sha2.SHA256) 64) 32
      (Spec.hmac (Spec.Sha2.digest Spec.Sha2.SHA256) 64 (("BLS-SIG-KEYGEN-SALT-".toList).map fun c => BitVec.ofNat 8 c.toNat) (ikm ++ beBytes 1 0))
      (info ++ beBytes 2 48) 48).length ≤ 48 := by rw [Spec.hkdfExpand]; simp
  generalize Spec.hkdfExpand _ 32 _ (info ++ beBytes 2 48) 48 = okm at *
  obtain ⟨r, h1, h2⟩ := rmod_ok h.dh (fromBytes_ok h.dh okm) (bytes_lt h.dh (num_lt K okm))
  have hn : num K okm = beNat okm := by rw [num, List.take_of_length_le (by omega)]
  rw [h1, ← hn]
  have hlt := mod_lt h.dh (num K okm)
  exact skTo_ok h h2 (lt_two h.dh hlt)

end Verif.Bls
