import Verif.Sha2.Stream
/- Helper lemmas: HMAC and HKDF of the SHA-2 model; op-sequence refinement. -/
namespace Verif.Sha2
open Spec (Byte)
open Spec.Sha2 (Variant)

variable {w : Nat} {P : Params w} {V : Variant w}

theorem agrees256 : Agrees P256 Spec.Sha2.SHA256 where
  hw := Or.inl rfl
  rounds := rfl
  rounds16 := by decide
  sig0 := rfl
  sig1 := rfl
  theta0 := rfl
  theta1 := rfl
  rot := by decide
  iv := by decide +kernel
  ivLen := rfl
  k := by decide +kernel
  kLen := rfl
  out := rfl
  outLe := by decide

theorem agrees512 : Agrees P512 Spec.Sha2.SHA512 where
  hw := Or.inr rfl
  rounds := rfl
  rounds16 := by decide
  sig0 := rfl
  sig1 := rfl
  theta0 := rfl
  theta1 := rfl
  rot := by decide
  iv := by decide +kernel
  ivLen := rfl
  k := by decide +kernel
  kLen := rfl
  out := rfl
  outLe := by decide

theorem agrees384 : Agrees P384 Spec.Sha2.SHA384 where
  hw := Or.inr rfl
  rounds := rfl
  rounds16 := by decide
  sig0 := rfl
  sig1 := rfl
  theta0 := rfl
  theta1 := rfl
  rot := by decide
  iv := by decide +kernel
  ivLen := rfl
  k := by decide +kernel
  kLen := rfl
  out := rfl
  outLe := by decide

theorem digest_length (m : List Byte) : (digest P m).length = P.hashBytes := by
  simp [digest, hash]

/-- the loop `for (i, byte) in k.iter().enumerate() { v[i] ^= byte }` -/
theorem xorLoop (k v : List Byte) (n : Nat) (hn : n ≤ k.length) (hv : k.length ≤ v.length) :
    (List.range n).foldl (fun (v : List Byte) (i : Nat) => v.set i (v.getD i 0 ^^^ k.getD i 0)) v
      = List.zipWith (· ^^^ ·) (v.take n) (k.take n) ++ v.drop n := by
  induction n with
  | zero => simp
  | succ n ih =>
    rw [List.range_succ, List.foldl_append, ih (by omega)]
    simp only [List.foldl_cons, List.foldl_nil]
    have hl : (List.zipWith (· ^^^ ·) (v.take n) (k.take n)).length = n := by
      simp; omega
    have hd : v.drop n = v[n] :: v.drop (n + 1) := List.drop_eq_getElem_cons (by omega)
    have hg : (List.zipWith (· ^^^ ·) (v.take n) (k.take n) ++ v.drop n).getD n 0 = v[n] := by
      rw [List.getD_eq_getElem?_getD, List.getElem?_append_right (by omega), hl, hd, Nat.sub_self]; rfl
    have hk : k.getD n 0 = k[n] := by
      rw [List.getD_eq_getElem?_getD, List.getElem?_eq_getElem (by omega)]; rfl
    rw [hg, hk, List.set_append_right _ _ (by omega), hl, Nat.sub_self, hd, List.set_cons_zero]
    rw [List.take_succ_eq_append_getElem (show n < v.length by omega),
      List.take_succ_eq_append_getElem (show n < k.length by omega),
      List.zipWith_append (by simp; omega)]
    simp

theorem xorPad (k : List Byte) (B : Nat) (c : Byte) (hk : k.length ≤ B) :
    (List.range k.length).foldl (fun (v : List Byte) (i : Nat) => v.set i (v.getD i 0 ^^^ k.getD i 0))
      (List.replicate B c) = (k ++ List.replicate (B - k.length) 0).map (· ^^^ c) := by
  rw [xorLoop k _ _ (Nat.le_refl _) (by simpa using hk)]
  apply List.ext_getElem
  · simp; omega
  · intro i h1 h2
    have hi : i < B := by simp at h2; omega
    by_cases hik : i < k.length
    · rw [List.getElem_append_left (by simp; omega)]
      rw [List.getElem_map, List.getElem_append_left hik]
      simp [BitVec.xor_comm]
    · rw [List.getElem_append_right (by simp; omega)]
      rw [List.getElem_map, List.getElem_append_right (Nat.le_of_not_lt hik)]
      simp

theorem hmac_eq (A : Agrees P V) (key text : List Byte) :
    hmac P key text = Spec.hmac (Spec.Sha2.digest V) (Spec.Sha2.blockBytes w) key text := by
  have hw := A.hw
  have ho := A.outLe
  have hB : w ≤ blockBytes w := by
    unfold blockBytes wordBytes; rcases hw with rfl | rfl <;> decide
  have hk : ∀ k : List Byte, k = (if key.length > blockBytes w then digest P key else key) →
      k.length ≤ blockBytes w := by
    intro k hk
    rw [hk]; split
    · rw [digest_length]; omega
    · omega
  have hkk : (if key.length > blockBytes w then digest P key else key)
      = (if key.length ≤ Spec.Sha2.blockBytes w then key else Spec.Sha2.digest V key) := by
    rw [digest_eq A]
    show (if key.length > blockBytes w then _ else _) = if key.length ≤ blockBytes w then _ else _
    split <;> split <;> first | rfl | omega
  unfold hmac Spec.hmac
  rw [← hkk]
  generalize hkv : (if key.length > blockBytes w then digest P key else key) = k
  have hkl := hk k hkv.symm
  simp only [xorPad k _ _ hkl, digest_eq A]
  rfl

theorem hmac_length (key text : List Byte) : (hmac P key text).length = P.hashBytes := by
  simp only [hmac, digest_length]

theorem hkdf_fold (prk info : List Byte) (n : Nat) :
    (List.range n).foldl
      (fun (acc : List Byte × List Byte) i =>
        let text := acc.2 ++ info ++ [BitVec.ofNat 8 (i + 1)]
        let previous := hmac P prk text
        (acc.1 ++ previous, previous)) ([], [])
    = ((List.range n).flatMap fun i => Spec.hkdfT (hmac P) prk info (i + 1),
       Spec.hkdfT (hmac P) prk info n) := by
  induction n with
  | zero => rfl
  | succ n ih =>
    rw [List.range_succ, List.foldl_append, ih]
    simp [Spec.hkdfT]

theorem hkdfT_length (prk info : List Byte) (i : Nat) :
    (Spec.hkdfT (hmac P) prk info (i + 1)).length = P.hashBytes := by
  rw [Spec.hkdfT, hmac_length]

theorem hkdfExtend_eq (A : Agrees P V) (prk info : List Byte) (l : BitVec 8)
    (hn : ∀ l : BitVec 8, (if l / BitVec.ofNat 8 P.hashBytes * BitVec.ofNat 8 P.hashBytes < l
        then l / BitVec.ofNat 8 P.hashBytes + 1 else l / BitVec.ofNat 8 P.hashBytes).toNat
      = (l.toNat + P.hashBytes - 1) / P.hashBytes) (hpos : 0 < P.hashBytes) :
    hkdfExtend P prk info l = Spec.hkdfExpand (Spec.hmac (Spec.Sha2.digest V) (Spec.Sha2.blockBytes w))
      P.hashBytes prk info l.toNat := by
  have hm : (hmac P) = Spec.hmac (Spec.Sha2.digest V) (Spec.Sha2.blockBytes w) := by
    funext a b; exact hmac_eq A a b
  unfold hkdfExtend Spec.hkdfExpand
  simp only [hn l, hkdf_fold, ← hm]
  have hlen : ((List.range ((l.toNat + P.hashBytes - 1) / P.hashBytes)).flatMap
      fun i => Spec.hkdfT (hmac P) prk info (i + 1)).length
      = (l.toNat + P.hashBytes - 1) / P.hashBytes * P.hashBytes := by
    rw [List.length_flatMap]
    simp only [hkdfT_length, List.map_const', List.sum_replicate_nat, List.length_range]
  have hge : l.toNat ≤ (l.toNat + P.hashBytes - 1) / P.hashBytes * P.hashBytes := by
    have h1 := Nat.div_add_mod (l.toNat + P.hashBytes - 1) P.hashBytes
    have h2 := Nat.mod_lt (l.toNat + P.hashBytes - 1) hpos
    rw [Nat.mul_comm] at h1
    omega
  rw [hlen, Nat.sub_eq_zero_of_le hge]
  simp

/-! ### histories -/

open Spec.Sha2 (Op specStep specRun)

theorem num_bytes (n : BitVec 32) :
    [((n.sshiftRight 24) &&& 0xff).setWidth 8, ((n.sshiftRight 16) &&& 0xff).setWidth 8,
     ((n.sshiftRight 8) &&& 0xff).setWidth 8, (n &&& 0xff).setWidth 8] = Spec.beBytes 4 n.toNat := by
  have key : ∀ k, k ≤ 24 → ((n.sshiftRight k) &&& 0xff).setWidth 8 = BitVec.ofNat 8 (n.toNat / 2 ^ k) := by
    intro k hk
    rw [show BitVec.ofNat 8 (n.toNat / 2 ^ k) = (n >>> k).setWidth 8 by
      apply BitVec.eq_of_toNat_eq
      simp [Nat.shiftRight_eq_div_pow]]
    apply BitVec.eq_of_getElem_eq
    intro i hi
    have h255 : ∀ i < 8, (0xff : BitVec 32).getLsbD i = true := by decide
    simp only [BitVec.getElem_setWidth, BitVec.getLsbD_and, h255 i hi, Bool.and_true]
    rw [BitVec.getLsbD_sshiftRight]
    have : ¬ 32 ≤ i := by omega
    simp [this, show k + i < 32 by omega]
  have h0 : (n &&& 0xff).setWidth 8 = BitVec.ofNat 8 (n.toNat / 2 ^ 0) := by
    rw [← key 0 (by omega)]; simp
  rw [key 24 (by omega), key 16 (by omega), key 8 (by omega), h0]
  simp only [Spec.beBytes, List.nil_append, List.cons_append, Nat.div_div_eq_div_mul]
  simp

theorem step_refines (A : Agrees P V) (m : List Byte) (st : St w) (I : Inv P V m st) (op : Op) :
    Inv P V (specStep V m op).1 (step P st op).1 ∧ (step P st op).2 = (specStep V m op).2 := by
  cases op with
  | byte b => exact ⟨process_inv A m st b I, rfl⟩
  | array bs => exact ⟨processArray_inv A m bs st I, rfl⟩
  | num n =>
    refine ⟨?_, rfl⟩
    show Inv P V (m ++ Spec.beBytes 4 n.toNat) _
    rw [← num_bytes n]
    exact processArray_inv A m _ st I
  | init => exact ⟨init_inv A st I.wLen, rfl⟩
  | hash =>
    have := hash_eq A m st I
    exact ⟨this.2, by simp [step, specStep, this.1]⟩

theorem run_refines (A : Agrees P V) (ops : List Op) (m : List Byte) (st : St w) (I : Inv P V m st) :
    run P st ops = specRun V m ops := by
  induction ops generalizing m st with
  | nil => rfl
  | cons op ops ih =>
    have h := step_refines A m st I op
    simp only [run, specRun, h.2, ih _ _ h.1]

end Verif.Sha2
