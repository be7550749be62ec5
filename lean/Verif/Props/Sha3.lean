import Verif.Sha3.Squeeze
/-
C22: SHA-3 and SHAKE.
-/
namespace Verif.Props
open Verif.Sha3
open Spec (bitsLSB)
attribute [local irreducible] Spec.Sha3.keccakF transform

/-- C22. For every message (of less than 2^64 - 200 bytes, the range of the byte counter) a fresh object fed with the
message byte by byte and finished with `hash` writes exactly the SHA3 digest of FIPS 202, for each of the four sizes
(in fact every `olen` below 100). -/
theorem C22_sha3 (olen : Nat) (h0 : 0 < olen) (h1 : olen < 100) (m : List Sha3.Byte) (hm : m.length + 200 < 2 ^ 64) :
    bitsLSB (hash (m.foldl process (new olen))).1 = Spec.Sha3.sha3 (8 * olen) (bitsLSB m) ∧
    (hash (m.foldl process (new olen))).1.length = olen := by
  have H := feed_inv (rate := 200 - 2 * olen) (by omega) m (new_inv olen) (by simp; omega)
  rw [List.nil_append] at H
  have hl : (feed (new olen) m).len = olen := feed_len m (new olen)
  obtain ⟨a, b, c⟩ := finish_absorb (by omega) H (by omega) [false, true] 5 0x06 0x86 rfl (by decide) (by decide) (by decide)
  rw [hl] at c
  show bitsLSB (squeeze (finish (feed (new olen) m) 0x06 0x86) (finish (feed (new olen) m) 0x06 0x86).len).1 = _ ∧
    (squeeze (finish (feed (new olen) m) 0x06 0x86) (finish (feed (new olen) m) 0x06 0x86).len).1.length = _
  rw [c]
  have hs := squeeze_eq (finish (feed (new olen) m) 0x06 0x86) olen (by rw [b]; omega) (by rw [b]; omega) h0
  rw [a, b] at hs
  have e : 1600 - 2 * (8 * olen) = 8 * (200 - 2 * olen) := by omega
  refine ⟨hs.1.trans ?_, hs.2⟩
  unfold Spec.Sha3.sha3 Spec.Sha3.keccak
  rw [e]

/-- C22. `shake` with any positive output length gives SHAKE128 (`olen` 16) and SHAKE256 (`olen` 32) output. -/
theorem C22_shake (olen d : Nat) (h1 : olen < 100) (hd : 0 < d) (m : List Sha3.Byte) (hm : m.length + 200 < 2 ^ 64) :
    bitsLSB (shake (m.foldl process (new olen)) d).1 = Spec.Sha3.shake (8 * olen) (bitsLSB m) (8 * d) ∧
    (shake (m.foldl process (new olen)) d).1.length = d := by
  have H := feed_inv (rate := 200 - 2 * olen) (by omega) m (new_inv olen) (by simp; omega)
  rw [List.nil_append] at H
  obtain ⟨a, b, c⟩ := finish_absorb (by omega) H (by omega) [true, true, true, true] 3 0x1f 0x9f rfl (by decide) (by decide) (by decide)
  show bitsLSB (squeeze (finish (feed (new olen) m) 0x1f 0x9f) d).1 = _ ∧ (squeeze (finish (feed (new olen) m) 0x1f 0x9f) d).1.length = _
  have hs := squeeze_eq (finish (feed (new olen) m) 0x1f 0x9f) d (by rw [b]; omega) (by rw [b]; omega) hd
  rw [a, b] at hs
  have e : 1600 - 2 * (8 * olen) = 8 * (200 - 2 * olen) := by omega
  refine ⟨hs.1.trans ?_, hs.2⟩
  unfold Spec.Sha3.shake Spec.Sha3.keccak
  rw [e]

example : (hash ([1, 2, 3].foldl process (new 32))).1.length = 32 := (C22_sha3 32 (by decide) (by decide) [1, 2, 3] (by decide)).2

theorem bitsLSB_inj (a b : List Sha3.Byte) (h : bitsLSB a = bitsLSB b) : a = b := by
  induction a generalizing b with
  | nil =>
    cases b with
    | nil => rfl
    | cons y t => have := congrArg List.length h; rw [bitsLSB_length, bitsLSB_length] at this; simp at this
  | cons x s ih =>
    cases b with
    | nil => have := congrArg List.length h; rw [bitsLSB_length, bitsLSB_length] at this; simp at this
    | cons y t =>
      have e : ∀ (a : Sha3.Byte) t, bitsLSB (a :: t) = (List.range 8).map a.getLsbD ++ bitsLSB t := fun _ _ => rfl
      rw [e, e] at h
      obtain ⟨h1, h2⟩ := List.append_inj h (by simp)
      have hxy : x = y := by
        apply BitVec.eq_of_getLsbD_eq
        intro i hi
        exact List.map_inj_left.1 h1 i (by simpa using hi)
      rw [hxy, ih t h2]

theorem toBits_length (A : Spec.Sha3.State) : (Spec.Sha3.toBits A).length = 1600 := by
  unfold Spec.Sha3.toBits
  simp [List.length_flatMap]

theorem squeeze_prefix (r : Nat) (hr : 0 < r) (hr2 : r ≤ 1600) (A : Spec.Sha3.State) (d1 d2 : Nat) (h : d1 ≤ d2) :
    Spec.Sha3.squeeze r A d1 = (Spec.Sha3.squeeze r A d2).take d1 := by
  unfold Spec.Sha3.squeeze
  have hN : (d1 + r - 1) / r ≤ (d2 + r - 1) / r := Nat.div_le_div_right (by omega)
  obtain ⟨k, hk⟩ := Nat.exists_eq_add_of_le hN
  rw [hk, List.range_add, List.flatMap_append, List.take_take, Nat.min_eq_left h, List.take_append_of_le_length]
  rw [List.length_flatMap]
  have : ∀ t, ((Spec.Sha3.toBits (Spec.Sha3.keccakF^[t] A)).take r).length = r := fun t => by rw [List.length_take, toBits_length]; omega
  simp only [this]
  have h1 := Nat.div_add_mod (d1 + r - 1) r
  have h2 := Nat.mod_lt (d1 + r - 1) hr
  have e : (List.map (fun _ => r) (List.range ((d1 + r - 1) / r))).sum = r * ((d1 + r - 1) / r) := by
    simp [Nat.mul_comm]
  rw [e]
  omega

/-- C22. A shorter SHAKE output is a prefix of a longer one. -/
theorem C22_shake_prefix (olen d1 d2 : Nat) (h1 : olen < 100) (h0 : 0 < d1) (hd : d1 ≤ d2) (m : List Sha3.Byte) (hm : m.length + 200 < 2 ^ 64) :
    (shake (m.foldl process (new olen)) d1).1 = (shake (m.foldl process (new olen)) d2).1.take d1 := by
  apply bitsLSB_inj
  rw [bitsLSB_take, (C22_shake olen d1 h1 h0 m hm).1, (C22_shake olen d2 h1 (by omega) m hm).1]
  exact squeeze_prefix _ (by omega) (by omega) _ _ _ (by omega)

end Verif.Props
