import Verif.Ecdh.Model
import Verif.Spec.Kdf
import Verif.Sha2.Hmac
import Verif.Aes.ModeSpec
/- Helper lemmas for `Verif/Ecdh/Model.lean`. -/
namespace Verif.Ecdh
open Spec (Byte ShaLen beBytes)
open Verif.Sha2 (P256 P384 P512)

theorem write_eq (dst : List Byte) (off : Nat) (src : List Byte) (h : off + src.length ≤ dst.length) :
    write dst off src = some (dst.take off ++ src ++ dst.drop (off + src.length)) := by
  unfold write
  by_cases hs : src = []
  · subst hs; simp
  · rw [if_neg hs, if_pos h]

theorem write_panic (dst : List Byte) (off : Nat) (src : List Byte) (hs : src ≠ []) (h : dst.length < off + src.length) :
    write dst off src = none := by
  unfold write
  rw [if_neg hs, if_neg (by omega)]

/-! ### hashing -/

theorem sha_length {n : Nat} (hn : ShaLen n) (m : List Byte) : (Spec.sha n m).length = n := by
  rcases hn with rfl | rfl | rfl
  · show (Spec.Sha2.digest Spec.Sha2.SHA256 m).length = _
    rw [← Sha2.digest_eq Sha2.agrees256, Sha2.digest_length]; rfl
  · show (Spec.Sha2.digest Spec.Sha2.SHA384 m).length = _
    rw [← Sha2.digest_eq Sha2.agrees384, Sha2.digest_length]; rfl
  · show (Spec.Sha2.digest Spec.Sha2.SHA512 m).length = _
    rw [← Sha2.digest_eq Sha2.agrees512, Sha2.digest_length]; rfl

/-- the counter as `hashit` feeds it: nothing when it is 0 -/
def ctr (n : Nat) : List Byte := if n > 0 then beBytes 4 n else []

theorem hashBranch_eq {w : Nat} {P : Sha2.Params w} {V : Spec.Sha2.Variant w} (A : Sha2.Agrees P V)
    (a : List Byte) (n : Nat) (b : Option (List Byte)) :
    hashBranch P a n b = Spec.Sha2.digest V (a ++ ctr n ++ b.getD []) := by
  have h1 := Sha2.processArray_inv A [] a _ (Sha2.new_inv A)
  rw [List.nil_append] at h1
  have h2 : Sha2.Inv P V (a ++ ctr n) (if n > 0 then Sha2.processNum P (Sha2.processArray P (Sha2.new P) a) (BitVec.ofNat 32 n)
      else Sha2.processArray P (Sha2.new P) a) := by
    unfold ctr
    by_cases hn : n > 0
    · rw [if_pos hn, if_pos hn]
      have := (Sha2.step_refines A _ _ h1 (.num (BitVec.ofNat 32 n))).1
      have e : beBytes 4 (BitVec.ofNat 32 n).toNat = beBytes 4 n := by
        rw [BitVec.toNat_ofNat, show 2 ^ 32 = 256 ^ 4 by norm_num, Spec.beBytes_mod]
      simpa only [Spec.Sha2.specStep, Sha2.step, e] using this
    · rw [if_neg hn, if_neg hn, List.append_nil]; exact h1
  unfold hashBranch
  cases b with
  | none => rw [Option.getD_none, List.append_nil]; exact (Sha2.hash_eq A _ _ h2).1
  | some x => exact (Sha2.hash_eq A _ _ (Sha2.processArray_inv A _ x _ h2)).1

theorem hashR_eq {n : Nat} (hn : ShaLen n) (a : List Byte) (c : Nat) (b : Option (List Byte)) :
    hashR n a c b = Spec.sha n (a ++ ctr c ++ b.getD []) ++ List.replicate (64 - n) 0 := by
  rcases hn with rfl | rfl | rfl
  · show hashBranch P256 a c b ++ List.replicate 32 0 = Spec.Sha2.digest Spec.Sha2.SHA256 _ ++ _
    rw [hashBranch_eq Sha2.agrees256]
  · show hashBranch P384 a c b ++ List.replicate 16 0 = Spec.Sha2.digest Spec.Sha2.SHA384 _ ++ _
    rw [hashBranch_eq Sha2.agrees384]
  · show hashBranch P512 a c b = Spec.Sha2.digest Spec.Sha2.SHA512 _ ++ _
    rw [hashBranch_eq Sha2.agrees512]
    simp

theorem sha_le {n : Nat} (hn : ShaLen n) : n ≤ 64 := by rcases hn with rfl | rfl | rfl <;> decide
theorem sha_ge {n : Nat} (hn : ShaLen n) : 32 ≤ n := by rcases hn with rfl | rfl | rfl <;> decide

/-- what `hashit` writes for the different `pad` -/
def padTo (n pad : Nat) (d : List Byte) : List Byte :=
  if pad = 0 then d else if pad ≤ n then d.take pad else List.replicate (pad - n) 0 ++ d

theorem padTo_length {n : Nat} (pad : Nat) (d : List Byte) (hd : d.length = n) :
    (padTo n pad d).length = if pad = 0 then n else pad := by
  unfold padTo
  split
  · exact hd
  · split <;> simp [hd] <;> omega

theorem hashit_eq {n : Nat} (hn : ShaLen n) (a : List Byte) (c : Nat) (b : Option (List Byte)) (pad : Nat) (w : List Byte)
    (hw : (if pad = 0 then n else pad) ≤ w.length) :
    hashit n a c b pad w = some (padTo n pad (Spec.sha n (a ++ ctr c ++ b.getD [])) ++ w.drop (if pad = 0 then n else pad)) := by
  have hl := sha_length hn (a ++ ctr c ++ b.getD [])
  have h64 := sha_le hn
  unfold hashit padTo
  rw [hashR_eq hn]
  generalize Spec.sha n (a ++ ctr c ++ b.getD []) = d at *
  have ht : ∀ k, k ≤ n → (d ++ List.replicate (64 - n) 0).take k = d.take k := fun k hk => by
    rw [List.take_append_of_le_length (by omega)]
  dsimp only
  by_cases h0 : pad = 0
  · rw [if_pos h0, if_pos h0, if_pos h0, if_pos h64, ht n le_rfl, List.take_of_length_le (by omega)]
    rw [if_pos h0] at hw
    rw [write_eq _ _ _ (by omega)]
    simp [hl]
  · rw [if_neg h0, if_neg h0, if_neg h0]
    rw [if_neg h0] at hw
    by_cases h1 : pad ≤ n
    · rw [if_pos h1, if_pos h1, if_pos (by omega), ht pad h1, write_eq _ _ _ (by simp; omega)]
      simp [hl, h1]
    · rw [if_neg h1, if_neg h1, if_pos h64, ht n le_rfl, List.take_of_length_le (by omega)]
      rw [write_eq _ _ _ (by omega)]
      rw [Option.bind_eq_bind, Option.bind_some, write_eq _ _ _ (by simp; omega)]
      have e1 : pad - n + d.length = pad := by omega
      rw [e1, List.take_zero, List.nil_append, Nat.zero_add, List.length_replicate, List.drop_append_of_le_length (by simp; omega),
        List.drop_append_of_le_length (by simp; omega), List.drop_of_length_le (by simp), List.nil_append]
      simp

theorem hashit0 {n : Nat} (hn : ShaLen n) (a : List Byte) (c : Nat) (b : Option (List Byte)) :
    hashit n a c b 0 (List.replicate 64 0) = some (Spec.sha n (a ++ ctr c ++ b.getD []) ++ List.replicate (64 - n) 0) := by
  rw [hashit_eq hn _ _ _ _ _ (by rw [if_pos rfl, List.length_replicate]; exact sha_le hn), List.drop_replicate]
  simp only [padTo, if_pos]

/-! ### KDF -/

theorem threshold_eq {n : Nat} (hn : 0 < n) (olen : Nat) : threshold olen n = Spec.ceilDiv olen n := by
  unfold threshold Spec.ceilDiv
  have h1 := Nat.div_add_mod olen n
  have h2 := Nat.mod_lt olen hn
  symm
  by_cases h : olen % n = 0
  · rw [if_neg (by simp [h])]
    rw [Nat.div_eq_of_lt_le]
    · rw [Nat.add_zero, Nat.mul_comm]; omega
    · rw [Nat.add_zero, Nat.succ_mul, Nat.mul_comm]; omega
  · rw [if_pos h, Nat.div_eq_of_lt_le]
    · rw [Nat.add_mul, Nat.mul_comm, Nat.one_mul]; omega
    · rw [Nat.succ_mul, Nat.add_mul, Nat.mul_comm, Nat.one_mul]; omega

/-- the loop over any list of counters: after `j` blocks the first `min (j n) olen` bytes are the blocks -/
theorem kdf_loop {n : Nat} (hn : ShaLen n) (z : List Byte) (p : Option (List Byte)) (olen : Nat) (k : List Byte) (hk : olen ≤ k.length)
    (cs : List Nat) (hcs : cs.length ≤ Spec.ceilDiv olen n) :
    cs.foldlM (kdfStep n z p olen) (k, 0)
      = some ((cs.flatMap fun c => Spec.sha n (z ++ ctr c ++ p.getD [])).take olen ++ k.drop (min olen (cs.length * n)), min olen (cs.length * n)) := by
  have h0 : 0 < n := by have := sha_ge hn; omega
  induction cs using List.reverseRecOn with
  | nil => simp
  | append_singleton cs c ih =>
    rw [List.length_append, List.length_singleton] at hcs
    rw [List.foldlM_append, ih (by omega)]
    have hlen : (cs.flatMap fun c => Spec.sha n (z ++ ctr c ++ p.getD [])).length = cs.length * n := by
      rw [List.length_flatMap]
      simp [sha_length hn]
    have hlt : cs.length * n < olen := by
      have h1 : (cs.length + 1) * n ≤ olen + n - 1 := by
        have := Nat.div_mul_le_self (olen + n - 1) n
        exact le_trans (Nat.mul_le_mul_right n hcs) this
      rw [Nat.add_mul, Nat.one_mul] at h1
      omega
    have hlast : cs.length * n + n > olen → olen % n = olen - cs.length * n := by
      intro h
      have : olen = (olen - cs.length * n) + n * cs.length := by rw [Nat.mul_comm n]; omega
      conv_lhs => rw [this]
      rw [Nat.add_mul_mod_self_left, Nat.mod_eq_of_lt (by omega)]
    rw [Nat.min_eq_right (le_of_lt hlt)]
    simp only [Option.bind_eq_bind, Option.bind_some, List.foldlM_cons, List.foldlM_nil, kdfStep, hashit0 hn]
    generalize hL : cs.length * n = L at *
    rw [List.flatMap_append, List.flatMap_singleton, List.length_append, List.length_singleton, Nat.add_mul, Nat.one_mul, hL]
    generalize hD : (cs.flatMap fun c => Spec.sha n (z ++ ctr c ++ p.getD [])) = D at *
    have hS := sha_length hn (z ++ ctr c ++ p.getD [])
    generalize Spec.sha n (z ++ ctr c ++ p.getD []) = S at *
    have hDt : D.take olen = D := List.take_of_length_le (by omega)
    rw [hDt]
    have h64 := sha_le hn
    by_cases hc : L + n > olen
    · rw [if_pos hc, hlast hc]
      have e : (S ++ List.replicate (64 - n) 0).take (olen - L) = S.take (olen - L) := by
        rw [List.take_append_of_le_length (by omega)]
      rw [e, write_eq _ _ _ (by simp; omega), Nat.min_eq_left (by omega)]
      simp only [Option.bind_some, Option.pure_def]
      congr 2
      · rw [List.take_append_of_le_length (by omega), List.take_of_length_le (by omega : D.length ≤ L), List.take_append, hDt, hlen,
          List.drop_append, List.drop_of_length_le (by simp; omega), List.drop_drop, List.nil_append]
        congr 2
        simp [hlen, hS]; omega
      · omega
    · rw [if_neg hc]
      have e : (S ++ List.replicate (64 - n) 0).take n = S := by
        rw [List.take_append_of_le_length (by omega), List.take_of_length_le (by omega)]
      rw [e, write_eq _ _ _ (by simp; omega), Nat.min_eq_right (by omega)]
      simp only [Option.bind_some, Option.pure_def]
      congr 2
      rw [List.take_append_of_le_length (by omega), List.take_of_length_le (by omega : D.length ≤ L), List.take_of_length_le (l := D ++ S) (by simp; omega),
        List.drop_append, List.drop_of_length_le (l := D) (by omega), List.drop_drop, List.nil_append]
      congr 2
      simp [hlen, hS]

theorem ceil_mul {n : Nat} (hn : 0 < n) (olen : Nat) : olen ≤ Spec.ceilDiv olen n * n := by
  unfold Spec.ceilDiv
  have h1 := Nat.div_add_mod (olen + n - 1) n
  have h2 := Nat.mod_lt (olen + n - 1) hn
  rw [Nat.mul_comm]
  omega

theorem kdf2_eq {n : Nat} (hn : ShaLen n) (z : List Byte) (p : Option (List Byte)) (olen : Nat) (k : List Byte) (hk : olen ≤ k.length) :
    kdf2 n z p olen k = some (Spec.kdf2 n z (p.getD []) olen ++ k.drop olen) := by
  have h0 : 0 < n := by have := sha_ge hn; omega
  unfold kdf2
  rw [threshold_eq h0, kdf_loop hn z p olen k hk (List.range' 1 (Spec.ceilDiv olen n)) (by simp)]
  simp only [Option.bind_eq_bind, Option.bind_some, Option.pure_def, List.length_range']
  rw [Nat.min_eq_left (ceil_mul h0 olen), Spec.kdf2, List.range'_eq_map_range, List.flatMap_map]
  congr 4
  funext i
  rw [ctr, if_pos (by omega), Nat.add_comm]

theorem kdf1_eq {n : Nat} (hn : ShaLen n) (z : List Byte) (olen : Nat) (k : List Byte) (hk : olen ≤ k.length) :
    kdf1 n z olen k = some (((List.range (Spec.ceilDiv olen n)).flatMap fun i => Spec.sha n (z ++ ctr i)).take olen ++ k.drop olen) := by
  have h0 : 0 < n := by have := sha_ge hn; omega
  unfold kdf1
  rw [threshold_eq h0, kdf_loop hn z none olen k hk (List.range (Spec.ceilDiv olen n)) (by simp)]
  simp only [Option.bind_eq_bind, Option.bind_some, Option.pure_def, List.length_range]
  rw [Nat.min_eq_left (ceil_mul h0 olen)]
  simp

/-! ### HMAC -/

theorem xor36_6a (l : List Byte) : (l.map (· ^^^ 0x36)).map (· ^^^ 0x6a) = l.map (· ^^^ 0x5c#8) := by
  rw [List.map_map]
  apply List.map_congr_left
  intro x _
  show (x ^^^ 0x36) ^^^ 0x6a = _
  rw [BitVec.xor_assoc]; rfl

theorem hmac_eq {n : Nat} (hn : ShaLen n) (m k : List Byte) (olen : Nat) (h4 : 4 ≤ olen) (tag : List Byte) (ht : olen ≤ tag.length) :
    hmac n m k olen tag = some (true, padTo n olen (Spec.mac n k m) ++ tag.drop olen) := by
  have h64 := sha_le hn
  have h32 := sha_ge hn
  unfold hmac
  rw [if_neg (by omega)]
  have hlb : (if n > 32 then 128 else 64) = Spec.shaBlock n := by rcases hn with rfl | rfl | rfl <;> rfl
  have hb1 : 64 ≤ Spec.shaBlock n := by rcases hn with rfl | rfl | rfl <;> decide
  have hb2 : Spec.shaBlock n ≤ 128 := by rcases hn with rfl | rfl | rfl <;> decide
  dsimp only
  rw [hlb]
  unfold Spec.mac Spec.hmac
  dsimp only
  generalize Spec.shaBlock n = B at *
  -- the key block
  have key : keyBlock n B k
      = some (((if k.length ≤ B then k else Spec.sha n k) ++ List.replicate (B - (if k.length ≤ B then k else Spec.sha n k).length) 0)
          ++ List.replicate (128 - B) 0) := by
    unfold keyBlock
    by_cases h : k.length ≤ B
    · rw [if_neg (by omega), if_pos h, write_eq _ _ _ (by simp; omega), List.take_zero, List.nil_append, Nat.zero_add, List.drop_replicate, List.append_assoc,
        List.replicate_append_replicate]
      congr 3
      omega
    · rw [if_pos (by omega), if_neg h, hashit0 hn]
      have hl := sha_length hn (k ++ ctr 0 ++ (none : Option (List Byte)).getD [])
      simp only [Option.bind_eq_bind, Option.bind_some]
      rw [List.take_append_of_le_length (by omega), List.take_of_length_le (by omega), write_eq _ _ _ (by rw [hl]; simp; omega)]
      have e : k ++ ctr 0 ++ (none : Option (List Byte)).getD [] = k := by simp [ctr]
      rw [e] at hl ⊢
      rw [List.take_zero, List.nil_append, Nat.zero_add, List.drop_replicate, List.append_assoc, List.replicate_append_replicate, hl]
      congr 3
      omega
  rw [key]
  simp only [Option.bind_eq_bind, Option.bind_some]
  generalize hK : ((if k.length ≤ B then k else Spec.sha n k) ++ List.replicate (B - (if k.length ≤ B then k else Spec.sha n k).length) 0) = K
  have hKl : K.length = B := by
    rw [← hK]
    by_cases h : k.length ≤ B
    · rw [if_pos h]; simp; omega
    · rw [if_neg h]; simp [sha_length hn]; omega
  have t1 : ∀ (f : Byte → Byte) (l r : List Byte), l.length = B → ((l ++ r).take B).map f ++ (l ++ r).drop B = l.map f ++ r := fun f l r h => by
    rw [List.take_append_of_le_length (by omega), List.take_of_length_le (by omega), List.drop_append_of_le_length (by omega), List.drop_of_length_le (by omega)]
    simp
  have t2 : ∀ (l r : List Byte), l.length = B → (l ++ r).take B = l := fun l r h => by
    rw [List.take_append_of_le_length (by omega), List.take_of_length_le (by omega)]
  have t3 : ∀ (l r : List Byte), l.length = B → (l ++ r).drop B = r := fun l r h => by
    rw [List.drop_append_of_le_length (by omega), List.drop_of_length_le (by omega), List.nil_append]
  rw [t1 _ _ _ hKl, t2 _ _ (by simp [hKl]), hashit0 hn]
  simp only [Option.bind_some]
  have hi := sha_length hn (List.map (fun x => x ^^^ (0x36 : Byte)) K ++ ctr 0 ++ (some m).getD [])
  have et : ∀ l : List Byte, l.length = n → (l ++ List.replicate (64 - n) (0 : Byte)).take n = l := fun l h => by
    rw [List.take_append_of_le_length (by omega), List.take_of_length_le (by omega)]
  rw [et _ hi, t3 _ _ (by simp [hKl]), t2 _ _ (by simp [hKl]), xor36_6a, hashit_eq hn _ _ _ _ _ (by rw [if_neg (by omega)]; exact ht)]
  simp only [Option.bind_some, if_neg (show ¬ olen = 0 by omega)]
  simp [ctr]

theorem mac_length {n : Nat} (hn : ShaLen n) (k m : List Byte) : (Spec.mac n k m).length = n := by
  unfold Spec.mac Spec.hmac
  exact sha_length hn _

end Verif.Ecdh
