import Verif.Rsa.Model
import Verif.Spec.Rsa
import Verif.Ecdh.Lemmas
/- Helper lemmas for `Verif/Rsa/Model.lean`. -/
namespace Verif.Rsa
open Spec (Byte ShaLen beBytes)
open Verif.Sha2 (P256 P384 P512)
open Verif.Ecdh (write write_eq write_panic threshold threshold_eq ceil_mul sha_length sha_le sha_ge)

/-- a nonnegative counter, or nothing -/
def ictr (n : Int) : List Byte := if n ≥ 0 then beBytes 4 n.toNat else []

theorem hashBranch_eq {w : Nat} {P : Sha2.Params w} {V : Spec.Sha2.Variant w} (A : Sha2.Agrees P V)
    (a : Option (List Byte)) (n : Int) : hashBranch P a n = Spec.Sha2.digest V (a.getD [] ++ ictr n) := by
  have h1 : Sha2.Inv P V (a.getD []) (match a with | some x => Sha2.processArray P (Sha2.new P) x | none => Sha2.new P) := by
    cases a with
    | none => exact Sha2.new_inv A
    | some x => simpa using Sha2.processArray_inv A [] x _ (Sha2.new_inv A)
  unfold hashBranch ictr
  dsimp only
  by_cases hn : n ≥ 0
  · rw [if_pos hn, if_pos hn]
    have := (Sha2.step_refines A _ _ h1 (.num (BitVec.ofInt 32 n))).1
    have e : beBytes 4 (BitVec.ofInt 32 n).toNat = beBytes 4 n.toNat := by
      obtain ⟨k, rfl⟩ := Int.eq_ofNat_of_zero_le hn
      have : BitVec.ofInt 32 (k : Int) = BitVec.ofNat 32 k := by simp
      rw [this, BitVec.toNat_ofNat, show 2 ^ 32 = 256 ^ 4 by norm_num, Spec.beBytes_mod, Int.toNat_natCast]
    simp only [Spec.Sha2.specStep, Sha2.step, e] at this
    exact (Sha2.hash_eq A _ _ this).1
  · rw [if_neg hn, if_neg hn, List.append_nil]
    exact (Sha2.hash_eq A _ _ h1).1

theorem hashit_eq {n : Nat} (hn : ShaLen n) (a : Option (List Byte)) (c : Int) (w : List Byte) (hw : n ≤ w.length) :
    hashit n a c w = some (Spec.sha n (a.getD [] ++ ictr c) ++ w.drop n) := by
  have hl := sha_length hn (a.getD [] ++ ictr c)
  have e : hashit n a c w = write w 0 (Spec.sha n (a.getD [] ++ ictr c)) := by
    rcases hn with rfl | rfl | rfl
    · show write w 0 (hashBranch P256 a c) = _
      rw [hashBranch_eq Sha2.agrees256]; rfl
    · show write w 0 (hashBranch P384 a c) = _
      rw [hashBranch_eq Sha2.agrees384]; rfl
    · show write w 0 (hashBranch P512 a c) = _
      rw [hashBranch_eq Sha2.agrees512]; rfl
  rw [e, write_eq _ _ _ (by omega), hl]
  simp

theorem mgf_loop {n : Nat} (hn : ShaLen n) (z : List Byte) (olen : Nat) (k : List Byte) (hk : olen ≤ k.length)
    (cs : List Nat) (hcs : cs.length ≤ Spec.ceilDiv olen n) :
    cs.foldlM (mgfStep n z olen) (k, 0)
      = some ((cs.flatMap fun (c : Nat) => Spec.sha n (z ++ beBytes 4 c)).take olen ++ k.drop (min olen (cs.length * n)), min olen (cs.length * n)) := by
  have h0 : 0 < n := by have := sha_ge hn; omega
  have h64 := sha_le hn
  induction cs using List.reverseRecOn with
  | nil => simp
  | append_singleton cs c ih =>
    rw [List.length_append, List.length_singleton] at hcs
    rw [List.foldlM_append, ih (by omega)]
    have hlen : (cs.flatMap fun (c : Nat) => Spec.sha n (z ++ beBytes 4 c)).length = cs.length * n := by
      rw [List.length_flatMap]
      simp [sha_length hn]
    have hlt : cs.length * n < olen := by
      have h1 : (cs.length + 1) * n ≤ olen + n - 1 := by
        have := Nat.div_mul_le_self (olen + n - 1) n
        exact le_trans (Nat.mul_le_mul_right n hcs) this
      rw [Nat.add_mul, Nat.one_mul] at h1
      omega
    have hlast : cs.length * n + n > olen → olen % n = olen - cs.length * n := by
      intro h
      have : olen = (olen - cs.length * n) + n * cs.length := by rw [Nat.mul_comm n]; omega
      conv_lhs => rw [this]
      rw [Nat.add_mul_mod_self_left, Nat.mod_eq_of_lt (by omega)]
    rw [Nat.min_eq_right (le_of_lt hlt)]
    have hh : hashit n (some z) c (List.replicate 64 0) = some (Spec.sha n (z ++ beBytes 4 c) ++ List.replicate (64 - n) 0) := by
      rw [hashit_eq hn _ _ _ (by simpa using h64), List.drop_replicate, ictr, if_pos (by omega), Int.toNat_natCast]
      rfl
    simp only [Option.bind_eq_bind, Option.bind_some, List.foldlM_cons, List.foldlM_nil, mgfStep, hh]
    generalize hL : cs.length * n = L at *
    rw [List.flatMap_append, List.flatMap_singleton, List.length_append, List.length_singleton, Nat.add_mul, Nat.one_mul, hL]
    generalize hD : (cs.flatMap fun (c : Nat) => Spec.sha n (z ++ beBytes 4 c)) = D at *
    have hS := sha_length hn (z ++ beBytes 4 c)
    generalize Spec.sha n (z ++ beBytes 4 c) = S at *
    have hDt : D.take olen = D := List.take_of_length_le (by omega)
    rw [hDt]
    by_cases hc : L + n > olen
    · rw [if_pos hc, hlast hc]
      have e : (S ++ List.replicate (64 - n) 0).take (olen - L) = S.take (olen - L) := by
        rw [List.take_append_of_le_length (by omega)]
      rw [e, write_eq _ _ _ (by simp; omega), Nat.min_eq_left (by omega)]
      simp only [Option.bind_some, Option.pure_def]
      congr 2
      · rw [List.take_append_of_le_length (by omega), List.take_of_length_le (by omega : D.length ≤ L), List.take_append, hDt, hlen,
          List.drop_append, List.drop_of_length_le (by simp; omega), List.drop_drop, List.nil_append]
        congr 2
        simp [hlen, hS]; omega
      · omega
    · rw [if_neg hc]
      have e : (S ++ List.replicate (64 - n) 0).take n = S := by
        rw [List.take_append_of_le_length (by omega), List.take_of_length_le (by omega)]
      rw [e, write_eq _ _ _ (by simp; omega), Nat.min_eq_right (by omega)]
      simp only [Option.bind_some, Option.pure_def]
      congr 2
      rw [List.take_append_of_le_length (by omega), List.take_of_length_le (by omega : D.length ≤ L), List.take_of_length_le (l := D ++ S) (by simp; omega),
        List.drop_append, List.drop_of_length_le (l := D) (by omega), List.drop_drop, List.nil_append]
      congr 2
      simp [hlen, hS]

theorem mgf1_eq {n : Nat} (hn : ShaLen n) (z : List Byte) (olen : Nat) (k : List Byte) (hk : olen ≤ k.length) :
    mgf1 n z olen k = some (Spec.Rsa.mgf1 n z olen ++ List.replicate (k.length - olen) 0) := by
  have h0 : 0 < n := by have := sha_ge hn; omega
  unfold mgf1
  rw [threshold_eq h0, mgf_loop hn z olen _ (by simpa using hk) (List.range (Spec.ceilDiv olen n)) (by simp)]
  simp only [Option.bind_eq_bind, Option.bind_some, Option.pure_def, List.length_range]
  rw [Nat.min_eq_left (ceil_mul h0 olen), List.drop_replicate]
  rfl

theorem mgf1_length {n : Nat} (hn : ShaLen n) (z : List Byte) (olen : Nat) : (Spec.Rsa.mgf1 n z olen).length = olen := by
  unfold Spec.Rsa.mgf1
  have h0 : 0 < n := by have := sha_ge hn; omega
  have := ceil_mul h0 olen
  rw [List.length_take, List.length_flatMap]
  simp [sha_length hn]
  exact this

theorem takeL {α : Type} (a b : List α) (n : Nat) (h : a.length = n) : (a ++ b).take n = a := by
  rw [List.take_append_of_le_length (by omega), List.take_of_length_le (by omega)]
theorem dropL {α : Type} (a b : List α) (n : Nat) (h : a.length = n) : (a ++ b).drop n = b := by
  rw [List.drop_append_of_le_length (by omega), List.drop_of_length_le (by omega), List.nil_append]

theorem dropC {α : Type} (a b : List α) (x : α) (n : Nat) (h : a.length + 1 = n) : (a ++ x :: b).drop n = b := by
  have : a ++ x :: b = (a ++ [x]) ++ b := by simp
  rw [this, dropL (a ++ [x]) b n (by simpa using h)]

/-- the code's encoding: MGF1 of the seed is taken over the seed padded with zeros to 64 bytes -/
def em (n k : Nat) (label seed m : List Byte) : List Byte :=
  Spec.Rsa.oaepWith (fun s l => Spec.Rsa.mgf1 n (s ++ List.replicate (64 - n) 0) l) (Spec.Rsa.mgf1 n) n k label seed m

theorem write_mid (a b src : List Byte) (off : Nat) (ha : a.length = off) (hb : src.length ≤ b.length) :
    write (a ++ b) off src = some (a ++ src ++ b.drop src.length) := by
  rw [write_eq _ _ _ (by simp; omega), takeL a b off ha, ← List.drop_drop, dropL a b off ha]

theorem xorBytes_comm (a b : List Byte) : List.zipWith (· ^^^ ·) a b = List.zipWith (· ^^^ ·) b a := by
  rw [List.zipWith_comm]
  congr 1
  funext x y
  exact BitVec.xor_comm _ _

theorem oaepEncode_eq {n : Nat} (hn : ShaLen n) (rfs : Nat) (hr : 2 * n + 2 ≤ rfs) (m seed : List Byte) (p : Option (List Byte)) (f : List Byte)
    (hs : seed.length = n) (hm : m.length + 2 * n + 2 ≤ rfs) (hf : rfs ≤ f.length) :
    oaepEncode rfs n m seed p f = some (true, em n rfs (p.getD []) seed m ++ List.replicate (f.length - rfs) 0) := by
  have h64 := sha_le hn
  unfold oaepEncode
  dsimp only
  rw [if_neg (by omega), if_neg (by omega), hashit_eq hn _ _ _ (by omega)]
  simp only [Option.bind_eq_bind, Option.bind_some]
  have hlab : (p.getD [] ++ ictr (-1)) = p.getD [] := by simp [ictr]
  rw [hlab]
  have lH := sha_length hn (p.getD [])
  unfold em Spec.Rsa.oaepWith
  dsimp only
  generalize Spec.sha n (p.getD []) = H at *
  have esl : rfs - 1 - m.length - n - n - 1 = rfs - m.length - 2 * n - 2 := by omega
  rw [esl]
  generalize hsl : rfs - m.length - 2 * n - 2 = sl at *
  rw [write_mid _ _ _ _ lH (by simp; omega), Option.bind_some, write_mid _ _ _ _ (by simp [lH]) (by simp; omega), Option.bind_some,
    write_mid _ _ _ _ (by simp [lH]; omega) (by simp; omega), Option.bind_some]
  have eL : rfs - 1 - n = rfs - n - 1 := by omega
  rw [eL]
  generalize hLL : rfs - n - 1 = L at *
  have lDB : (H ++ List.replicate sl 0 ++ [1] ++ m).length = L := by simp [lH]; omega
  generalize hR : List.drop m.length (List.drop [(1 : Byte)].length (List.drop (List.replicate sl (0 : Byte)).length (List.drop n f))) = R at *
  have lR : R.length = f.length - L := by rw [← hR]; simp; omega
  generalize hDB : H ++ List.replicate sl 0 ++ [1] ++ m = DB at *
  rw [mgf1_eq hn _ _ _ (by simp; omega), Option.bind_some, List.length_replicate]
  have lM := mgf1_length hn (seed ++ List.replicate (64 - n) 0) L
  generalize Spec.Rsa.mgf1 n (seed ++ List.replicate (64 - n) 0) L = M at *
  rw [takeL M _ L lM, dropL M _ L lM, takeL DB _ L lDB]
  have lX : (List.zipWith (· ^^^ ·) M DB).length = L := by simp [lM, lDB]
  rw [takeL _ _ L lX, mgf1_eq hn _ _ _ (by simp [lDB, lR]; omega), Option.bind_some]
  have lM2 := mgf1_length hn (List.zipWith (· ^^^ ·) M DB) n
  rw [takeL _ _ n lM2, dropL _ _ n lM2, takeL seed _ n hs]
  have lF : (DB ++ R).length = f.length := by simp [lDB, lR]; omega
  rw [lF]
  rw [write_mid _ _ _ _ (by simp [lM2, hs]) (by simp [lX]; omega), Option.bind_some, List.drop_replicate, lX]
  have lY : (List.zipWith (· ^^^ ·) (Spec.Rsa.mgf1 n (List.zipWith (· ^^^ ·) M DB) n) seed).length = n := by simp [lM2, hs]
  rw [xorBytes_comm _ seed] at lY ⊢
  rw [xorBytes_comm M DB] at *
  rw [if_neg (by simp only [List.length_append, lY, lX, List.length_replicate]; omega)]
  congr 2
  have eR : f.length - n - L = (f.length - rfs) + 1 := by omega
  rw [eR, List.replicate_succ]
  have hYX : (List.zipWith (· ^^^ ·) seed (Spec.Rsa.mgf1 n (List.zipWith (· ^^^ ·) DB M) n) ++ List.zipWith (· ^^^ ·) DB M).length = rfs - 1 := by
    simp only [List.length_append, lY, lX]; omega
  rw [takeL _ _ (rfs - 1) hYX]
  rw [dropC _ _ _ rfs (by rw [hYX]; omega)]
  simp [Spec.xorBytes]

/-- the decoding on the parts of the encoded message -/
def unmask (n L : Nat) (S D : List Byte) : List Byte × List Byte :=
  let seed := List.zipWith (· ^^^ ·) S (Spec.Rsa.mgf1 n D n)
  (seed, List.zipWith (· ^^^ ·) D (Spec.Rsa.mgf1 n (seed ++ List.replicate (64 - n) 0) L))

theorem oaepDecode_eq {n : Nat} (hn : ShaLen n) (rfs : Nat) (hr : 2 * n + 2 ≤ rfs) (p : Option (List Byte)) (x : Byte) (S D R : List Byte)
    (hS : S.length = n) (hD : D.length = rfs - 1 - n) :
    ∃ f1 : List Byte, f1.length = (x :: S ++ D ++ R).length ∧
    oaepDecode rfs n p (x :: S ++ D ++ R) =
      let DB := (unmask n (rfs - 1 - n) S D).2
      let k := (DB.drop n).findIdx (· != 0)
      if k ≥ rfs - 1 - n - n then some (0, f1)
      else if !(Spec.sha n (p.getD []) == DB.take n) || x != 0 || (DB.drop n).getD k 0 != 1 then some (0, f1)
      else some (rfs - 1 - n - n - k - 1, (DB.drop n).drop (k + 1) ++ f1.drop (rfs - 1 - n - n - k - 1)) := by
  have h64 := sha_le hn
  have lH := sha_length hn (p.getD [])
  have lM := mgf1_length hn D n
  refine ⟨Spec.Rsa.mgf1 n ((unmask n (rfs - 1 - n) S D).1 ++ List.replicate (64 - n) 0) (rfs - 1 - n) ++ List.replicate ((x :: S ++ D ++ R).length - (rfs - 1 - n)) 0, ?_, ?_⟩
  rotate_left
  · unfold oaepDecode unmask
    dsimp only
    have hlen : (x :: S ++ D ++ R).length = rfs + R.length := by simp [hS, hD]; omega
    rw [if_neg (by omega), if_neg (by omega), if_neg (by rw [hlen]; omega), hashit_eq hn _ _ _ (by simpa using h64)]
    simp only [Option.bind_eq_bind, Option.bind_some]
    have hlab : (p.getD [] ++ ictr (-1)) = p.getD [] := by simp [ictr]
    rw [hlab]
    generalize Spec.sha n (p.getD []) = H at *
    have e1 : List.drop (n + 1) (x :: S ++ D ++ R) = D ++ R := by
      rw [List.append_assoc]; exact dropL (x :: S) (D ++ R) (n + 1) (by simp [hS])
    have e2 : (List.drop 1 (x :: S ++ D ++ R)).take n = S := by
      show (S ++ D ++ R).take n = S
      rw [List.append_assoc]; exact takeL S _ n hS
    have e3 : (x :: S ++ D ++ R).getD 0 0 = x := rfl
    rw [e1, e2, e3]
    generalize hL : rfs - 1 - n = L at *
    rw [takeL D R L hD, takeL D _ L hD, mgf1_eq hn _ _ _ (by simpa using h64), Option.bind_some, dropL D _ L hD, takeL _ _ n lM, dropL _ _ n lM]
    have eseed : List.zipWith (· ^^^ ·) (Spec.Rsa.mgf1 n D n) S = List.zipWith (· ^^^ ·) S (Spec.Rsa.mgf1 n D n) := xorBytes_comm _ _
    rw [eseed, List.length_replicate]
    generalize List.zipWith (· ^^^ ·) S (Spec.Rsa.mgf1 n D n) = seed at *
    rw [mgf1_eq hn _ _ _ (by rw [hlen]; omega), Option.bind_some]
    have lM2 := mgf1_length hn (seed ++ List.replicate (64 - n) 0) L
    rw [takeL _ _ L lM2]
    have lDB : (List.zipWith (· ^^^ ·) D (Spec.Rsa.mgf1 n (seed ++ List.replicate (64 - n) 0) L)).length = L := by rw [List.length_zipWith, hD, lM2, Nat.min_self]
    generalize hDB : List.zipWith (· ^^^ ·) D (Spec.Rsa.mgf1 n (seed ++ List.replicate (64 - n) 0) L) = DB at *
    rw [takeL H _ n lH]
    have e4 : (DB ++ List.replicate (rfs - L) 0).take n = DB.take n := by rw [List.take_append_of_le_length (by omega)]
    have e5 : ((DB ++ List.replicate (rfs - L) 0).drop n).take (L - n) = DB.drop n := by
      rw [List.drop_append_of_le_length (by omega)]
      exact takeL _ _ _ (by simp [lDB])
    rw [e4, e5]
    have lE : (DB.drop n).length = L - n := by simp [lDB]
    rw [takeL _ _ (L - n) lE]
    generalize hk : (DB.drop n).findIdx (· != 0) = k at *
    by_cases h1 : k ≥ L - n
    · rw [if_pos h1, if_pos h1]; rfl
    · rw [if_neg h1, if_neg h1]
      have e6 : ∀ rest : List Byte, (DB.drop n ++ rest).getD k 0 = (DB.drop n).getD k 0 := fun rest => by
        rw [List.getD_eq_getElem?_getD, List.getD_eq_getElem?_getD, List.getElem?_append_left (by omega)]
      rw [e6]
      have e7 : ∀ rest : List Byte, ((DB.drop n ++ rest).drop (k + 1)).take (L - n - k - 1) = (DB.drop n).drop (k + 1) := fun rest => by
        rw [List.drop_append_of_le_length (by omega)]
        exact takeL _ _ _ (by rw [List.length_drop, lE]; omega)
      rw [e7]
      split
      · rfl
      · rw [write_eq _ _ _ (by rw [List.length_append, lM2, List.length_replicate, List.length_drop, lE, hlen]; omega)]
        simp only [Option.bind_some, List.take_zero, List.nil_append, Nat.zero_add, Option.pure_def]
        congr 4
        rw [List.length_drop, lE]; omega
  · simp [mgf1_length hn]; omega

theorem findIdx_sep (k : Nat) (m : List Byte) : (List.replicate k (0 : Byte) ++ [1] ++ m).findIdx (· != 0) = k := by
  induction k with
  | zero => rfl
  | succ k ih => simp only [List.replicate_succ, List.cons_append, List.findIdx_cons, ih]; rfl

theorem sep_of_findIdx (l : List Byte) (k : Nat) (h : l.findIdx (· != 0) = k) (hk : k < l.length) (h1 : l.getD k 0 = 1) :
    l = List.replicate k 0 ++ [1] ++ l.drop (k + 1) := by
  induction l generalizing k with
  | nil => simp at hk
  | cons x xs ih =>
    rw [List.findIdx_cons] at h
    by_cases hx : x = 0
    · subst hx
      simp only [bne_self_eq_false, cond_false] at h
      subst h
      simp only [List.getD_cons_succ, List.length_cons] at h1 hk
      have := ih _ rfl (by omega) h1
      conv_lhs => rw [this]
      simp [List.replicate_succ]
    · have hb : (x != 0) = true := by simpa using hx
      rw [hb, cond_true] at h
      subst h
      simp only [List.getD_cons_zero] at h1
      subst h1
      rfl

theorem zx (s t : List Byte) (h : s.length ≤ t.length) : List.zipWith (· ^^^ ·) (List.zipWith (· ^^^ ·) s t) t = s := by
  induction s generalizing t with
  | nil => simp
  | cons x xs ih =>
    cases t with
    | nil => simp at h
    | cons y ys => simp [ih ys (by simpa using h), BitVec.xor_assoc]

end Verif.Rsa
