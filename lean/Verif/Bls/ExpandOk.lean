import Verif.Bls.Expand
import Verif.Spec.H2c
import Verif.Sha2.Hmac
import Verif.Common.Bytes
/-
`expand_message_xmd` computes the draft's construction.
-/
namespace Verif.H2c
open Spec (Byte beBytes)
open Spec.H2c (blk)

/-- the hash function of the standard -/
def Alg.H : Alg → List Byte → List Byte
  | .sha256 => Spec.Sha2.digest Spec.Sha2.SHA256
  | .sha384 => Spec.Sha2.digest Spec.Sha2.SHA384
  | .sha512 => Spec.Sha2.digest Spec.Sha2.SHA512

theorem hash_H (msg : List Byte) (a : Alg) : hash msg a = a.H msg := by
  cases a
  · exact Sha2.digest_eq Sha2.agrees256 msg
  · exact Sha2.digest_eq Sha2.agrees384 msg
  · exact Sha2.digest_eq Sha2.agrees512 msg

theorem hash_length (msg : List Byte) (a : Alg) : (hash msg a).length = a.length := by
  cases a <;> simp [hash, Sha2.digest, Sha2.hash, Alg.length]

theorem H_length (msg : List Byte) (a : Alg) : (a.H msg).length = a.length := by
  rw [← hash_H, hash_length]

theorem length_pos (a : Alg) : 0 < a.length := by cases a <;> decide

theorem dstPrime_eq (a : Alg) (dst : List Byte) : dstPrime a dst = Spec.H2c.dstPrime a.H dst := by
  unfold dstPrime Spec.H2c.dstPrime Spec.H2c.tag
  have ho : oversizedDst = Spec.H2c.oversize := by decide +kernel
  by_cases c : dst.length > 255
  · simp only [if_pos c, hash_H, ho, H_length, beBytes, List.nil_append]
  · simp only [if_neg c, beBytes, List.nil_append]

theorem blk_length (a : Alg) (z d : List Byte) (hz : z.length = a.length) : ∀ i, (blk a.H z d i).length = a.length
  | 0 => by simpa [blk] using hz
  | 1 => by simp [blk, H_length]
  | i + 2 => by simp [blk, H_length]

theorem mapM_some {α β : Type} (f : α → Option β) (g : α → β) : ∀ l : List α, (∀ x ∈ l, f x = some (g x)) →
    l.mapM f = some (l.map g)
  | [], _ => rfl
  | x :: l, h => by
    rw [List.mapM_cons, h x List.mem_cons_self, mapM_some f g l fun y hy => h y (List.mem_cons_of_mem x hy)]
    rfl

theorem xor_mapM (z y : List Byte) (h : z.length = y.length) :
    ((List.range z.length).mapM fun j => do
      let x ← z[j]?
      let y ← y[j]?
      pure (x ^^^ y)) = some (List.zipWith (· ^^^ ·) z y) := by
  rw [mapM_some _ (fun j => z.getD j 0 ^^^ y.getD j 0)]
  · congr 1
    refine List.ext_getElem (by simp [h]) fun i h1 h2 => ?_
    have hz : i < z.length := by simpa using h1
    have hy : i < y.length := h ▸ hz
    simp [hz, hy]
  · intro j hj
    have hz : j < z.length := by simpa using hj
    have hy : j < y.length := h ▸ hz
    simp [hz, hy]

theorem blocks_get (f : Nat → List Byte) (k i : Nat) (h : i < k) : ((List.range k).map f)[i]? = some (f i) := by
  simp [h]

theorem step_ok (a : Alg) (z d : List Byte) (hz : z.length = a.length) (k : Nat) (out : List Byte) :
    expandStep a d ((List.range (k + 2)).map (blk a.H z d), out) (k + 2)
      = some ((List.range (k + 3)).map (blk a.H z d), out ++ blk a.H z d (k + 2)) := by
  have e : (List.range (k + 3)).map (blk a.H z d)
      = (List.range (k + 2)).map (blk a.H z d) ++ [blk a.H z d (k + 2)] := by
    rw [List.range_succ, List.map_append]; rfl
  have h0 := blocks_get (blk a.H z d) (k + 2) 0 (by omega)
  have h1 := blocks_get (blk a.H z d) (k + 2) (k + 1) (by omega)
  have hx := xor_mapM z (blk a.H z d (k + 1)) (by rw [blk_length a z d hz, hz])
  have hb : hash (List.zipWith (· ^^^ ·) z (blk a.H z d (k + 1)) ++ [BitVec.ofNat 8 (k + 2)] ++ d) a
      = blk a.H z d (k + 2) := by rw [hash_H]; rfl
  have h2 := blocks_get (blk a.H z d) (k + 3) (k + 2) (by omega)
  simp only [expandStep, h0, show k + 2 - 1 = k + 1 from rfl, h1, Option.bind_eq_bind, Option.bind_some,
    show blk a.H z d 0 = z from rfl, Option.pure_def] at *
  rw [hx]
  simp only [Option.bind_some, hb, ← e, h2]

theorem loop_ok (a : Alg) (z d : List Byte) (hz : z.length = a.length) (k : Nat) :
    (List.range' 2 k).foldlM (expandStep a d) ([z, blk a.H z d 1], blk a.H z d 1)
      = some ((List.range (k + 2)).map (blk a.H z d), (List.range' 1 (k + 1)).flatMap (blk a.H z d)) := by
  induction k with
  | zero => simp [List.range_succ, blk]
  | succ k ih =>
    rw [List.range'_concat, List.foldlM_append, ih]
    have h := step_ok a z d hz k ((List.range' 1 (k + 1)).flatMap (blk a.H z d))
    rw [show 2 + 1 * k = k + 2 by omega]
    simp only [Option.bind_eq_bind, Option.bind_some, List.foldlM_cons, List.foldlM_nil, h, Option.pure_def]
    rw [List.range'_concat (s := 1) (n := k + 1), List.flatMap_append]
    simp only [show 1 + 1 * (k + 1) = k + 2 by omega, List.flatMap_cons, List.flatMap_nil, List.append_nil]

theorem flat_length (a : Alg) (z d : List Byte) (hz : z.length = a.length) (s : Nat) : ∀ k,
    ((List.range' s k).flatMap (blk a.H z d)).length = k * a.length
  | 0 => by simp
  | k + 1 => by
    rw [List.range'_concat, List.flatMap_append, List.length_append, flat_length a z d hz s k]
    simp [blk_length a z d hz, Nat.add_mul]

theorem lib_eq (len : Nat) :
    [((BitVec.ofNat 16 len) >>> 8).setWidth 8, (BitVec.ofNat 16 len).setWidth 8] = beBytes 2 len := by
  simp only [beBytes, List.nil_append, List.cons_append, List.cons.injEq, and_true]
  constructor
  · apply BitVec.eq_of_toNat_eq
    simp only [BitVec.toNat_setWidth, BitVec.toNat_ushiftRight, BitVec.toNat_ofNat, Nat.shiftRight_eq_div_pow]
    omega
  · apply BitVec.eq_of_toNat_eq
    simp

theorem zpad_eq : ∀ n, List.replicate n (0 : Byte) = beBytes n 0
  | 0 => rfl
  | n + 1 => by rw [beBytes, ← zpad_eq n, List.replicate_succ']; rfl

/-- `expand_message_xmd` never panics and returns the draft's string, or the error code where the draft aborts. -/
theorem expand_ok (a : Alg) (msg : List Byte) (len : Nat) (dst : List Byte) :
    expandMessageXmd a msg len dst
      = some (match Spec.H2c.expand a.H a.length a.blockSize msg len dst with
          | none => .error .hashToFieldError
          | some r => .ok r) := by
  unfold expandMessageXmd Spec.H2c.expand
  by_cases c : (len + a.length - 1) / a.length > 255
  · simp only [if_pos c]
  · simp only [if_neg c]
    have hp := length_pos a
    rw [lib_eq, dstPrime_eq, zpad_eq, hash_H, hash_H]
    have e0 : a.H (beBytes a.blockSize 0 ++ msg ++ beBytes 2 len ++ [0] ++ Spec.H2c.dstPrime a.H dst)
        = Spec.H2c.b0 a.H a.blockSize msg len dst := rfl
    rw [e0]
    generalize hz0 : Spec.H2c.b0 a.H a.blockSize msg len dst = z
    have hz : z.length = a.length := by rw [← hz0]; exact H_length _ a
    generalize Spec.H2c.dstPrime a.H dst = d
    have e1 : a.H (z ++ [1] ++ d) = blk a.H z d 1 := rfl
    rw [e1, loop_ok a z d hz]
    simp only [Option.bind_eq_bind, Option.bind_some]
    generalize hl : (len + a.length - 1) / a.length = ell
    have h1 : len ≤ ell * a.length := by
      have := Nat.div_add_mod (len + a.length - 1) a.length
      have := Nat.mod_lt (len + a.length - 1) hp
      rw [hl] at *
      rw [Nat.mul_comm]; omega
    have h2 : len ≤ (ell - 1 + 1) * a.length :=
      Nat.le_trans h1 (Nat.mul_le_mul_right _ (by omega))
    rw [flat_length a z d hz, if_pos h2]
    cases ell with
    | zero =>
      have : len = 0 := by omega
      subst this
      simp
    | succ n => rfl

end Verif.H2c
