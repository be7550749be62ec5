import Verif.Rsa.Lemmas
import Mathlib.FieldTheory.Finite.Basic
import Mathlib.Data.Nat.ChineseRemainder
/-
C39-C42: RSA encodings and RSA itself.
-/
namespace Verif.Props
open Verif.Ecdh Verif.Rsa
open Spec (Byte ShaLen beBytes)

/-! ### C42: the mask generation function -/

/-- C42. `mgf1` fills the first `olen` bytes with MGF1 of the whole input and clears the rest of the buffer. -/
theorem C42_mgf1 (n : Nat) (hn : ShaLen n) (z : List Byte) (olen : Nat) (k : List Byte) (hk : olen ≤ k.length) :
    Rsa.mgf1 n z olen k = some (Spec.Rsa.mgf1 n z olen ++ List.replicate (k.length - olen) 0) :=
  mgf1_eq hn z olen k hk

/-- the specification produces exactly the requested length -/
theorem C42_length (n : Nat) (hn : ShaLen n) (z : List Byte) (olen : Nat) : (Spec.Rsa.mgf1 n z olen).length = olen :=
  mgf1_length hn z olen

example : ∃ r, Rsa.mgf1 32 [1, 2, 3] 40 (List.replicate 41 7) = some r ∧ r.length = 41 ∧ r.getD 40 9 = 0 := by
  refine ⟨_, C42_mgf1 32 (Or.inl rfl) _ _ _ (by simp), ?_, ?_⟩
  · simp [C42_length 32 (Or.inl rfl)]
  · rw [List.getD_eq_getElem?_getD, List.getElem?_append_right (by rw [C42_length 32 (Or.inl rfl)]), C42_length 32 (Or.inl rfl)]; rfl

/-! ### C39: OAEP -/

/-- C39. The encoding written by `oaep_encode` is EME-OAEP with the seed mask computed from the seed padded with
zeros to 64 bytes; the rest of the buffer is cleared. -/
theorem C39_encode (n : Nat) (hn : ShaLen n) (rfs : Nat) (m seed : List Byte) (p : Option (List Byte)) (f : List Byte)
    (hs : seed.length = n) (hm : m.length + 2 * n + 2 ≤ rfs) (hf : rfs ≤ f.length) :
    oaepEncode rfs n m seed p f = some (true,
      Spec.Rsa.oaepWith (fun s l => Spec.Rsa.mgf1 n (s ++ List.replicate (64 - n) 0) l) (Spec.Rsa.mgf1 n) n rfs (p.getD []) seed m
        ++ List.replicate (f.length - rfs) 0) :=
  oaepEncode_eq hn rfs (by omega) m seed p f hs hm hf

/-- C39. With SHA-512 the encoding is the standard EME-OAEP one. -/
theorem C39_encode_standard (rfs : Nat) (m seed : List Byte) (p : Option (List Byte)) (f : List Byte)
    (hs : seed.length = 64) (hm : m.length + 2 * 64 + 2 ≤ rfs) (hf : f.length = rfs) :
    oaepEncode rfs 64 m seed p f = some (true, Spec.Rsa.oaep 64 rfs (p.getD []) seed m) := by
  rw [C39_encode 64 (Or.inr (Or.inr rfl)) rfs m seed p f hs hm (by omega), hf, Nat.sub_self]
  simp [Spec.Rsa.oaep]

/-- C39. A message that does not fit is refused and the buffer is left as it was. -/
theorem C39_too_long (n rfs : Nat) (m seed : List Byte) (p : Option (List Byte)) (f : List Byte)
    (hr : 2 * n + 2 ≤ rfs) (hm : rfs < m.length + 2 * n + 2) : oaepEncode rfs n m seed p f = some (false, f) := by
  unfold oaepEncode
  dsimp only
  rw [if_neg (by omega), if_pos (by omega)]

theorem em_parts {n : Nat} (hn : ShaLen n) (rfs : Nat) (label seed m : List Byte) (hs : seed.length = n) (hm : m.length + 2 * n + 2 ≤ rfs) :
    ∃ S D : List Byte, em n rfs label seed m = 0 :: S ++ D ∧ S.length = n ∧ D.length = rfs - 1 - n ∧
      unmask n (rfs - 1 - n) S D = (seed, Spec.sha n label ++ (List.replicate (rfs - m.length - 2 * n - 2) 0 ++ [1] ++ m)) := by
  have lH := sha_length hn label
  have e1 : rfs - n - 1 = rfs - 1 - n := by omega
  have l1 := mgf1_length hn (seed ++ List.replicate (64 - n) 0) (rfs - 1 - n)
  have l2 : (Spec.sha n label ++ List.replicate (rfs - m.length - 2 * n - 2) (0 : Byte) ++ [1] ++ m).length = rfs - 1 - n := by simp [lH]; omega
  have hd : ∃ D, D = List.zipWith (· ^^^ ·) (Spec.sha n label ++ List.replicate (rfs - m.length - 2 * n - 2) (0 : Byte) ++ [1] ++ m)
      (Spec.Rsa.mgf1 n (seed ++ List.replicate (64 - n) 0) (rfs - 1 - n)) := ⟨_, rfl⟩
  obtain ⟨D, hD⟩ := hd
  refine ⟨List.zipWith (· ^^^ ·) seed (Spec.Rsa.mgf1 n D n), D, ?_, ?_, ?_, ?_⟩
  · unfold Rsa.em Spec.Rsa.oaepWith Spec.xorBytes
    dsimp only
    rw [e1, ← hD]
    rfl
  · simp only [List.length_zipWith, mgf1_length hn, hs, Nat.min_self]
  · rw [hD, List.length_zipWith, l1, l2, Nat.min_self]
  · unfold unmask
    dsimp only
    rw [zx seed _ (by rw [mgf1_length hn, hs]), hD, zx _ _ (by rw [l1, l2])]
    simp only [List.append_assoc]

theorem unmask_em {n : Nat} (hn : ShaLen n) (rfs : Nat) (label S D m : List Byte) (hS : S.length = n) (hD : D.length = rfs - 1 - n)
    (seed : List Byte)
    (h : unmask n (rfs - 1 - n) S D = (seed, Spec.sha n label ++ List.replicate (rfs - m.length - 2 * n - 2) 0 ++ [1] ++ m)) :
    em n rfs label seed m = 0 :: S ++ D ∧ seed.length = n := by
  have e1 : rfs - n - 1 = rfs - 1 - n := by omega
  unfold unmask at h
  dsimp only at h
  rw [Prod.mk.injEq] at h
  obtain ⟨h1, h2⟩ := h
  have ls : seed.length = n := by rw [← h1]; simp [mgf1_length hn, hS]
  refine ⟨?_, ls⟩
  rw [h1] at h2
  have hDB : Spec.xorBytes (Spec.sha n label ++ List.replicate (rfs - m.length - 2 * n - 2) 0 ++ [1] ++ m)
      (Spec.Rsa.mgf1 n (seed ++ List.replicate (64 - n) 0) (rfs - 1 - n)) = D := by
    rw [← h2]
    unfold Spec.xorBytes
    exact zx _ _ (by rw [mgf1_length hn]; omega)
  have hSS : Spec.xorBytes seed (Spec.Rsa.mgf1 n D n) = S := by
    rw [← h1]
    unfold Spec.xorBytes
    exact zx _ _ (by rw [mgf1_length hn]; omega)
  unfold Rsa.em Spec.Rsa.oaepWith
  dsimp only
  rw [e1, hDB, hSS]
  rfl

/-- C39. Decoding an encoding under the same parameter returns the length of the message and puts the message at the
start of the buffer, whatever followed the encoding in the buffer. -/
theorem C39_roundtrip (n : Nat) (hn : ShaLen n) (rfs : Nat) (m seed : List Byte) (p : Option (List Byte)) (f : List Byte)
    (hs : seed.length = n) (hm : m.length + 2 * n + 2 ≤ rfs) (hf : rfs ≤ f.length) :
    ∃ g h, oaepEncode rfs n m seed p f = some (true, g) ∧ oaepDecode rfs n p g = some (m.length, h) ∧ h.take m.length = m := by
  rw [oaepEncode_eq hn rfs (by omega) m seed p f hs hm hf]
  obtain ⟨S, D, he, hS, hD, hu⟩ := em_parts hn rfs (p.getD []) seed m hs hm
  rw [he]
  obtain ⟨f1, lf, hd⟩ := oaepDecode_eq hn rfs (by omega) p 0 S D (List.replicate (f.length - rfs) 0) hS hD
  have lH := sha_length hn (p.getD [])
  rw [hu] at hd
  dsimp only at hd
  rw [dropL _ _ n lH, takeL _ _ n lH, findIdx_sep] at hd
  rw [if_neg (by omega)] at hd
  have g1 : (List.replicate (rfs - m.length - 2 * n - 2) (0 : Byte) ++ [1] ++ m).getD (rfs - m.length - 2 * n - 2) 0 = 1 := by
    rw [List.getD_eq_getElem?_getD, List.append_assoc, List.getElem?_append_right (by simp)]; simp
  rw [g1] at hd
  have g2 : (List.replicate (rfs - m.length - 2 * n - 2) (0 : Byte) ++ [1] ++ m).drop (rfs - m.length - 2 * n - 2 + 1) = m :=
    dropL _ _ _ (by simp)
  rw [g2] at hd
  have g3 : rfs - 1 - n - n - (rfs - m.length - 2 * n - 2) - 1 = m.length := by omega
  rw [g3] at hd
  refine ⟨_, m ++ f1.drop m.length, rfl, ?_, ?_⟩
  · rw [hd]; simp
  · exact takeL _ _ _ rfl

theorem split_buf (n rfs : Nat) (f : List Byte) (hr : 2 * n + 2 ≤ rfs) (hf : rfs ≤ f.length) :
    ∃ x S D R, f = x :: S ++ D ++ R ∧ S.length = n ∧ D.length = rfs - 1 - n := by
  cases f with
  | nil => simp at hf; omega
  | cons x t =>
    simp only [List.length_cons] at hf
    refine ⟨x, t.take n, (t.drop n).take (rfs - 1 - n), (t.drop n).drop (rfs - 1 - n), ?_, ?_, ?_⟩
    · simp [List.append_assoc]
    · simp; omega
    · simp; omega

/-- C39. Decoding never panics on a buffer of at least `RFS` bytes and keeps its length. -/
theorem C39_decode_total (n : Nat) (hn : ShaLen n) (rfs : Nat) (p : Option (List Byte)) (f : List Byte)
    (hr : 2 * n + 2 ≤ rfs) (hf : rfs ≤ f.length) :
    ∃ r g, oaepDecode rfs n p f = some (r, g) ∧ r + 2 * n + 2 ≤ rfs ∧ g.length = f.length := by
  obtain ⟨x, S, D, R, rfl, hS, hD⟩ := split_buf n rfs f hr hf
  obtain ⟨f1, lf, hd⟩ := oaepDecode_eq hn rfs hr p x S D R hS hD
  rw [hd]
  dsimp only
  have lE : ((unmask n (rfs - 1 - n) S D).2.drop n).length = rfs - 1 - n - n := by
    unfold unmask; dsimp only; rw [List.length_drop, List.length_zipWith, mgf1_length hn, hD, Nat.min_self]
  split
  · exact ⟨_, _, rfl, by omega, lf⟩
  · split
    · exact ⟨_, _, rfl, by omega, lf⟩
    · refine ⟨_, _, rfl, by omega, ?_⟩
      rw [List.length_append, List.length_drop (i := _ + 1), lE, List.length_drop, lf]
      omega

/-- C39. If decoding reports a non-empty message then the first `RFS` bytes of the input are the encoding of
exactly that message under the given parameter, for some seed: any other input (wrong parameter hash, non-zero first
byte, missing or wrong separator) is reported as length 0. -/
theorem C39_decode_sound (n : Nat) (hn : ShaLen n) (rfs : Nat) (p : Option (List Byte)) (f : List Byte) (r : Nat) (g : List Byte)
    (hr : 2 * n + 2 ≤ rfs) (hf : rfs ≤ f.length) (h : oaepDecode rfs n p f = some (r, g)) (h0 : 0 < r) :
    ∃ seed, seed.length = n ∧ r + 2 * n + 2 ≤ rfs ∧ f.take rfs =
      Spec.Rsa.oaepWith (fun s l => Spec.Rsa.mgf1 n (s ++ List.replicate (64 - n) 0) l) (Spec.Rsa.mgf1 n) n rfs (p.getD []) seed (g.take r) := by
  obtain ⟨x, S, D, R, rfl, hS, hD⟩ := split_buf n rfs f hr hf
  obtain ⟨f1, lf, hd⟩ := oaepDecode_eq hn rfs hr p x S D R hS hD
  rw [hd] at h
  dsimp only at h
  have lE0 : ((unmask n (rfs - 1 - n) S D).2).length = rfs - 1 - n := by
    unfold unmask; dsimp only; rw [List.length_zipWith, mgf1_length hn, hD, Nat.min_self]
  have lE : ((unmask n (rfs - 1 - n) S D).2.drop n).length = rfs - 1 - n - n := by rw [List.length_drop, lE0]
  split at h
  · simp only [Option.some.injEq, Prod.mk.injEq] at h; omega
  · rename_i hk
    split at h
    · simp only [Option.some.injEq, Prod.mk.injEq] at h; omega
    · rename_i hc
      simp only [Option.some.injEq, Prod.mk.injEq] at h
      obtain ⟨hr1, hg⟩ := h
      simp only [Bool.or_eq_true, not_or, Bool.not_eq_true, Bool.not_eq_false', beq_iff_eq, bne_eq_false_iff_eq] at hc
      obtain ⟨⟨hsha, hx⟩, ht⟩ := hc
      have hsep := sep_of_findIdx _ _ rfl (by omega) ht
      generalize hK : ((unmask n (rfs - 1 - n) S D).2.drop n).findIdx (· != 0) = k at *
      have lm : (((unmask n (rfs - 1 - n) S D).2.drop n).drop (k + 1)).length = r := by
        rw [List.length_drop, lE]; omega
      have gt : g.take r = ((unmask n (rfs - 1 - n) S D).2.drop n).drop (k + 1) := by
        rw [← hg]; exact takeL _ _ _ lm
      have hDB : unmask n (rfs - 1 - n) S D = ((unmask n (rfs - 1 - n) S D).1,
          Spec.sha n (p.getD []) ++ List.replicate (rfs - (g.take r).length - 2 * n - 2) 0 ++ [1] ++ g.take r) := by
        have e : rfs - (g.take r).length - 2 * n - 2 = k := by rw [gt, lm]; omega
        rw [e, gt, List.append_assoc, List.append_assoc, ← List.append_assoc (List.replicate k 0), ← hsep, hsha, List.take_append_drop]
      obtain ⟨h1, h2⟩ := unmask_em hn rfs (p.getD []) S D (g.take r) hS hD _ hDB
      refine ⟨_, h2, by omega, ?_⟩
      show _ = em n rfs (p.getD []) _ (g.take r)
      rw [h1, hx]
      exact takeL _ _ _ (by simp [hS, hD]; omega)

/-- C39. Decoding under a parameter with a different hash reports length 0. -/
theorem C39_wrong_parameter (n : Nat) (hn : ShaLen n) (rfs : Nat) (m seed : List Byte) (p p' : Option (List Byte)) (R : List Byte)
    (hs : seed.length = n) (hm : m.length + 2 * n + 2 ≤ rfs) (hp : Spec.sha n (p'.getD []) ≠ Spec.sha n (p.getD [])) :
    ∃ g, oaepDecode rfs n p' (em n rfs (p.getD []) seed m ++ R) = some (0, g) := by
  obtain ⟨S, D, he, hS, hD, hu⟩ := em_parts hn rfs (p.getD []) seed m hs hm
  rw [he]
  obtain ⟨f1, lf, hd⟩ := oaepDecode_eq hn rfs (by omega) p' 0 S D R hS hD
  have lH := sha_length hn (p.getD [])
  rw [hu] at hd
  dsimp only at hd
  rw [takeL _ _ n lH] at hd
  have : (Spec.sha n (p'.getD []) == Spec.sha n (p.getD [])) = false := by simpa using hp
  rw [this] at hd
  rw [hd]
  simp

/-- C39. A non-zero first byte is always reported as length 0. -/
theorem C39_nonzero_first (n : Nat) (hn : ShaLen n) (rfs : Nat) (p : Option (List Byte)) (f : List Byte)
    (hr : 2 * n + 2 ≤ rfs) (hf : rfs ≤ f.length) (hx : f.getD 0 0 ≠ 0) : ∃ g, oaepDecode rfs n p f = some (0, g) := by
  obtain ⟨r, g, h, hb, -⟩ := C39_decode_total n hn rfs p f hr hf
  rcases Nat.eq_zero_or_pos r with rfl | h0
  · exact ⟨g, h⟩
  · obtain ⟨seed, ls, -, he⟩ := C39_decode_sound n hn rfs p f r g hr hf h h0
    exfalso
    apply hx
    have : (f.take rfs).getD 0 0 = 0 := by rw [he]; rfl
    rw [← this]
    cases f with
    | nil => rfl
    | cons a t => cases rfs with
      | zero => omega
      | succ k => rfl

/-- C39. An input shorter than `RFS` panics. -/
theorem C39_short_panics (n rfs : Nat) (p : Option (List Byte)) (f : List Byte) (hr : 2 * n + 2 ≤ rfs) (hf : f.length < rfs) :
    oaepDecode rfs n p f = none := by
  unfold oaepDecode
  dsimp only
  rw [if_neg (by omega), if_neg (by omega), if_pos hf]

/-- C39. The empty message cannot be told from a rejection: both are reported as length 0. -/
theorem C39_empty_message (n : Nat) (hn : ShaLen n) (rfs : Nat) (seed : List Byte) (p : Option (List Byte)) (f : List Byte)
    (hs : seed.length = n) (hr : 2 * n + 2 ≤ rfs) (hf : rfs ≤ f.length) :
    ∃ g h, oaepEncode rfs n [] seed p f = some (true, g) ∧ oaepDecode rfs n p g = some (0, h) := by
  obtain ⟨g, h, h1, h2, -⟩ := C39_roundtrip n hn rfs [] seed p f hs (by simpa using hr) hf
  exact ⟨g, h, h1, h2⟩

/-- C39. With SHA-256 the encoding differs from standard EME-OAEP. -/
theorem C39_nonstandard : ∃ g, oaepEncode 66 32 [] (List.replicate 32 0) none (List.replicate 66 0) = some (true, g) ∧
    g ≠ Spec.Rsa.oaep 32 66 [] (List.replicate 32 0) [] := by
  refine ⟨_, C39_encode 32 (Or.inl rfl) 66 _ _ none _ (by simp) (by simp) (by simp), ?_⟩
  decide +kernel

/-! ### C40: PKCS#1 v1.5 -/

/-- C40. The stored identifier strings are the DER headers of the three DigestInfo structures. -/
theorem C40_digestInfo (h : List Byte) :
    (h.length = 32 → SHA256ID ++ h = Spec.Rsa.digestInfo 32 h) ∧
    (h.length = 48 → SHA384ID ++ h = Spec.Rsa.digestInfo 48 h) ∧
    (h.length = 64 → SHA512ID ++ h = Spec.Rsa.digestInfo 64 h) := by
  refine ⟨fun l => ?_, fun l => ?_, fun l => ?_⟩
  all_goals
    unfold Spec.Rsa.digestInfo Spec.Rsa.der
    simp only [List.length_append, List.length_cons, l]
    rfl

theorem pkcs15_eq {n : Nat} (hn : ShaLen n) (olen : Nat) (m w : List Byte) (ho : 29 + n ≤ olen) (hw : olen ≤ w.length) :
    pkcs15 olen n m w = some (true, [0x00, 0x01] ++ List.replicate (olen - 19 - n - 3) 0xff ++ [0x00]
      ++ Spec.Rsa.digestInfo n (Spec.sha n m) ++ List.replicate (w.length - olen) 0) := by
  have h64 := sha_le hn
  have lH := sha_length hn m
  have hid : ∃ I : List Byte, I.length = 19 ∧ (if n = 32 then SHA256ID else if n = 48 then SHA384ID else if n = 64 then SHA512ID else []) = I ∧
      I ++ Spec.sha n m = Spec.Rsa.digestInfo n (Spec.sha n m) := by
    obtain ⟨a, b, c⟩ := C40_digestInfo (Spec.sha n m)
    rcases hn with rfl | rfl | rfl
    · exact ⟨SHA256ID, rfl, rfl, a lH⟩
    · exact ⟨SHA384ID, rfl, rfl, b lH⟩
    · exact ⟨SHA512ID, rfl, rfl, c lH⟩
  obtain ⟨I, lI, hI, hD⟩ := hid
  unfold pkcs15
  rw [if_neg (by omega), Rsa.hashit_eq hn _ _ _ (by simpa using h64)]
  simp only [Option.bind_eq_bind, Option.bind_some, Option.getD_some]
  have hlab : m ++ ictr (-1) = m := by simp [ictr]
  rw [hlab, hI, takeL _ _ n lH, ← hD]
  generalize hnp : olen - 19 - n - 3 = np
  generalize Spec.sha n m = H at *
  have hz : List.replicate w.length (0 : Byte) = [] ++ List.replicate w.length 0 := rfl
  rw [hz, write_mid [] _ [0] 0 rfl (by simp; omega), Option.bind_some, write_mid _ _ [1] 1 (by simp) (by simp; omega), Option.bind_some]
  rw [write_mid _ _ (List.replicate np 0xff) 2 (by simp) (by simp; omega), Option.bind_some]
  rw [write_mid _ _ [0] (2 + np) (by simp; omega) (by simp; omega), Option.bind_some]
  rw [write_mid _ _ I (3 + np) (by simp; omega) (by simp [lI]; omega), Option.bind_some]
  rw [write_mid _ _ H (3 + np + I.length) (by simp; omega) (by simp [lH, lI]; omega), Option.bind_some]
  simp only [Option.pure_def, Option.some.injEq, Prod.mk.injEq, true_and, List.nil_append, List.drop_replicate, List.length_replicate, List.length_cons, List.length_nil, lI, lH]
  have e : w.length - (0 + 1) - (0 + 1) - np - (0 + 1) - 19 - n = w.length - olen := by omega
  rw [e]
  simp

/-- C40. For every modulus length in bytes that is even (as `FF_BITS / 8` always is) `pkcs15` agrees with RFC 8017:
it writes the EMSA-PKCS1-v1_5 encoding and reports success, or, exactly when the RFC says the length is too short,
reports failure and leaves the buffer alone. -/
theorem C40_pkcs15 (n : Nat) (hn : ShaLen n) (olen : Nat) (m w : List Byte) (he : olen % 2 = 0) (hw : olen ≤ w.length) :
    pkcs15 olen n m w = match Spec.Rsa.emsaPkcs1 n m olen with
      | some e => some (true, e ++ List.replicate (w.length - olen) 0)
      | none => some (false, w) := by
  have lH := sha_length hn m
  have lT : (Spec.Rsa.digestInfo n (Spec.sha n m)).length = 19 + n := by
    obtain ⟨a, b, c⟩ := C40_digestInfo (Spec.sha n m)
    rcases hn with rfl | rfl | rfl
    · rw [← a lH, List.length_append, lH]; rfl
    · rw [← b lH, List.length_append, lH]; rfl
    · rw [← c lH, List.length_append, lH]; rfl
  unfold Spec.Rsa.emsaPkcs1
  dsimp only
  rw [lT]
  by_cases h : olen < 19 + n + 11
  · rw [if_pos h]
    unfold pkcs15
    rw [if_pos]
    rcases hn with rfl | rfl | rfl <;> omega
  · rw [if_neg h, pkcs15_eq hn olen m w (by omega) hw]
    have e1 : olen - (19 + n) - 3 = olen - 19 - n - 3 := by omega
    rw [e1]

/-- C40. The test on the length is one too weak: for a modulus of 61 bytes and SHA-256 the RFC refuses and the code
produces an encoding with only seven padding bytes.  (No `FF` size has an odd number of bytes.) -/
theorem C40_pkcs15_boundary (m : List Byte) : Spec.Rsa.emsaPkcs1 32 m 61 = none ∧
    ∃ w, pkcs15 61 32 m (List.replicate 61 0) = some (true, w) ∧ w.take 10 = [0, 1, 255, 255, 255, 255, 255, 255, 255, 0] := by
  constructor
  · have lH := sha_length (n := 32) (Or.inl rfl) m
    unfold Spec.Rsa.emsaPkcs1
    dsimp only
    rw [if_pos]
    rw [← (C40_digestInfo (Spec.sha 32 m)).1 lH, List.length_append, lH]
    decide
  · refine ⟨_, pkcs15_eq (Or.inl rfl) 61 m _ (by omega) (by simp), rfl⟩

example (m : List Byte) : ∃ e, Spec.Rsa.emsaPkcs1 32 m 256 = some e ∧ pkcs15 256 32 m (List.replicate 256 0) = some (true, e) := by
  have lH := sha_length (n := 32) (Or.inl rfl) m
  have := C40_pkcs15 32 (Or.inl rfl) 256 m (List.replicate 256 0) rfl (by rw [List.length_replicate])
  have h : ∃ e, Spec.Rsa.emsaPkcs1 32 m 256 = some e := by
    unfold Spec.Rsa.emsaPkcs1
    dsimp only
    rw [← (C40_digestInfo (Spec.sha 32 m)).1 lH, List.length_append, lH, if_neg (by decide)]
    exact ⟨_, rfl⟩
  obtain ⟨e, he⟩ := h
  rw [he] at this
  rw [List.length_replicate, Nat.sub_self, List.replicate_zero] at this
  dsimp only at this
  rw [List.append_nil] at this
  exact ⟨e, he, this⟩

/-! ### C41: RSA -/

theorem half_exponent (e p d : Nat) (hp : Nat.Prime p) (h3 : p % 4 = 3) (he : e % 2 = 1) (hd : d % 2 = 1)
    (h : e * d ≡ 1 [MOD (p - 1) / 2]) (x : Nat) : x ^ (e * d) ≡ x [MOD p] := by
  have : Fact p.Prime := ⟨hp⟩
  have h2 : e * d ≡ 1 [MOD 2] := by
    have := Nat.odd_mul.2 ⟨Nat.odd_iff.2 he, Nat.odd_iff.2 hd⟩
    exact Nat.odd_iff.1 this
  have hc : Nat.Coprime ((p - 1) / 2) 2 := by
    rw [Nat.coprime_two_right]
    exact Nat.odd_iff.2 (by omega)
  have h4 := (Nat.modEq_and_modEq_iff_modEq_mul hc).1 ⟨h, h2⟩
  have e2 : (p - 1) / 2 * 2 = p - 1 := by omega
  rw [e2] at h4
  have hpos : 1 ≤ e * d := by
    rcases Nat.eq_zero_or_pos (e * d) with h0 | h0
    · rw [h0] at h2; exact absurd h2 (by decide)
    · exact h0
  obtain ⟨k, hk⟩ := (Nat.modEq_iff_dvd' hpos).1 h4.symm
  have ek : e * d = (p - 1) * k + 1 := by omega
  rw [← ZMod.natCast_eq_natCast_iff]
  push_cast
  rw [ek, pow_succ, pow_mul]
  by_cases h0 : (x : ZMod p) = 0
  · rw [h0]; simp
  · rw [ZMod.pow_card_sub_one_eq_one h0, one_pow, one_mul]

/-- what `halfExp` needs of the modular inversion: `e` times the inverse is 1 -/
theorem halfExp_spec (inv : Nat → Nat → Nat) (e p : Nat) (h3 : p % 4 = 3)
    (hi : e * inv e ((p - 1) / 2) ≡ 1 [MOD (p - 1) / 2]) :
    e * halfExp inv e p ≡ 1 [MOD (p - 1) / 2] ∧ halfExp inv e p % 2 = 1 := by
  unfold halfExp
  dsimp only
  split
  · refine ⟨?_, by omega⟩
    rw [Nat.mul_add]
    have : e * ((p - 1) / 2) ≡ 0 [MOD (p - 1) / 2] := by
      rw [Nat.modEq_zero_iff_dvd]; exact Nat.dvd_mul_left _ _
    exact hi.add this
  · exact ⟨hi, by omega⟩

/-- CRT decryption inverts encryption, for given private exponents and a given inverse of `p` modulo `q` -/
theorem decrypt_core (e p q dp dq c x : Nat) (hp : Nat.Prime p) (hq : Nat.Prime q) (hne : p ≠ q)
    (hp3 : p % 4 = 3) (hq3 : q % 4 = 3) (he : e % 2 = 1)
    (a1 : e * dp ≡ 1 [MOD (p - 1) / 2]) (a2 : dp % 2 = 1) (b1 : e * dq ≡ 1 [MOD (q - 1) / 2]) (b2 : dq % 2 = 1)
    (hc : p * c ≡ 1 [MOD q]) (hx : x < p * q) :
    decrypt ⟨p, q, dp, dq, c⟩ (encrypt e (p * q) x) = x := by
  have hpq : Nat.Coprime p q := (Nat.coprime_primes hp hq).2 hne
  have hq0 := hq.pos
  have hp0 := hp.pos
  have jp : ∀ r d, (r = p ∨ r = q) → r.Prime → r % 4 = 3 → e * d ≡ 1 [MOD (r - 1) / 2] → d % 2 = 1 →
      (x ^ e % (p * q) % r) ^ d % r = x % r := by
    intro r d hr hr1 hr2 h1 h2
    have h3 : (x ^ e % (p * q) % r) ≡ x ^ e [MOD r] := by
      refine (Nat.mod_modEq _ _).trans ?_
      refine (Nat.mod_modEq (x ^ e) (p * q)).of_dvd ?_
      rcases hr with rfl | rfl
      · exact Nat.dvd_mul_right _ _
      · exact Nat.dvd_mul_left _ _
    have h4 := (h3.pow d).trans ((by rw [← pow_mul] : (x ^ e) ^ d ≡ x ^ (e * d) [MOD r]).trans (half_exponent e r d hr1 hr2 he h2 h1 x))
    exact h4
  unfold decrypt encrypt
  dsimp only
  rw [jp p _ (Or.inl rfl) hp hp3 a1 a2, jp q _ (Or.inr rfl) hq hq3 b1 b2]
  generalize hD : (if x % p % q > x % q then x % q + q else x % q) - x % p % q = D
  have hDv : D + x % p ≡ x [MOD q] := by
    have hl := Nat.mod_lt (x % p) hq0
    have : D + x % p % q ≡ x [MOD q] := by
      rw [← hD]
      split
      · have e5 : x % q + q - x % p % q + x % p % q = x % q + q := by omega
        rw [e5]
        have := (Nat.mod_modEq x q).add (show q ≡ 0 [MOD q] from by simp [Nat.ModEq])
        simpa using this
      · have e5 : x % q - x % p % q + x % p % q = x % q := by omega
        rw [e5]
        exact Nat.mod_modEq _ _
    exact ((Nat.ModEq.refl D).add (Nat.mod_modEq (x % p) q).symm).trans this
  have hmodp : x % p + c * D % q * p ≡ x [MOD p] := by
    have : c * D % q * p ≡ 0 [MOD p] := by
      rw [Nat.modEq_zero_iff_dvd]; exact Nat.dvd_mul_left _ _
    simpa using (Nat.mod_modEq x p).add this
  have hmodq : x % p + c * D % q * p ≡ x [MOD q] := by
    have h1 : c * D % q * p ≡ D [MOD q] := by
      have h2 : c * D % q * p ≡ c * D * p [MOD q] := (Nat.mod_modEq _ _).mul_right _
      have h3 : c * D * p = (p * c) * D := by ring
      rw [h3] at h2
      have h4 := hc.mul_right D
      rw [one_mul] at h4
      exact h2.trans h4
    have := (Nat.ModEq.refl (x % p)).add h1
    rw [Nat.add_comm (x % p) D] at this
    exact this.trans hDv
  have hmod := (Nat.modEq_and_modEq_iff_modEq_mul hpq).1 ⟨hmodp, hmodq⟩
  refine Nat.ModEq.eq_of_lt_of_lt hmod ?_ hx
  have h1 := Nat.mod_lt x hp0
  have h2 := Nat.mod_lt (c * D) hq0
  calc x % p + c * D % q * p < p + c * D % q * p := by omega
    _ = (c * D % q + 1) * p := by ring
    _ ≤ q * p := Nat.mul_le_mul_right _ h2
    _ = p * q := Nat.mul_comm _ _

/-- C41, on integers. For different primes `p`, `q` congruent to 3 modulo 4 (which is how `key_pair` chooses them), an odd public
exponent invertible modulo `(p-1)/2` and `(q-1)/2`, and any correct modular inversion, CRT decryption of the encryption
of any value below the modulus returns that value.  The theorems about the multi-limb program are in `Props/Ff.lean`. -/
theorem C41_integers (inv : Nat → Nat → Nat) (e p q x : Nat) (hp : Nat.Prime p) (hq : Nat.Prime q) (hne : p ≠ q)
    (hp3 : p % 4 = 3) (hq3 : q % 4 = 3) (he : e % 2 = 1)
    (hinv : ∀ a m, Nat.Coprime a m → a * inv a m ≡ 1 [MOD m])
    (hcp : Nat.Coprime e ((p - 1) / 2)) (hcq : Nat.Coprime e ((q - 1) / 2)) (hx : x < p * q) :
    decrypt (keyPair inv e p q).1 (encrypt e (keyPair inv e p q).2 x) = x := by
  have hpq : Nat.Coprime p q := (Nat.coprime_primes hp hq).2 hne
  obtain ⟨a1, a2⟩ := halfExp_spec inv e p hp3 (hinv _ _ hcp)
  obtain ⟨b1, b2⟩ := halfExp_spec inv e q hq3 (hinv _ _ hcq)
  exact decrypt_core e p q _ _ _ x hp hq hne hp3 hq3 he a1 a2 b1 b2 (hinv p q hpq) hx

/-- the extended Euclid inverse satisfies the requirement on the inversion -/
theorem inv_exists : ∃ inv : Nat → Nat → Nat, ∀ a m, Nat.Coprime a m → a * inv a m ≡ 1 [MOD m] := by
  have : ∀ a m, ∃ b, Nat.Coprime a m → a * b ≡ 1 [MOD m] := by
    intro a m
    by_cases h : Nat.Coprime a m
    · by_cases hm : 1 < m
      · obtain ⟨b, -, hb⟩ := Nat.exists_mul_mod_eq_one_of_coprime h hm
        exact ⟨b, fun _ => by rw [Nat.ModEq, hb, Nat.mod_eq_of_lt hm]⟩
      · rcases (by omega : m = 0 ∨ m = 1) with rfl | rfl
        · exact ⟨1, fun _ => by
            have : a = 1 := by simpa using h
            rw [this]⟩
        · exact ⟨0, fun _ => Nat.modEq_one⟩
    · exact ⟨0, fun h' => absurd h' h⟩
  choose f hf using this
  exact ⟨f, hf⟩

example : ∃ inv, decrypt (keyPair inv 5 7 19).1 (encrypt 5 (keyPair inv 5 7 19).2 100) = 100 := by
  obtain ⟨inv, h⟩ := inv_exists
  exact ⟨inv, C41_integers inv 5 7 19 100 (by decide) (by decide) (by decide) (by decide) (by decide) (by decide) h
    (by decide) (by decide) (by decide)⟩

/-- C41. The condition `p ≠ q`, which `key_pair` does not check, is needed. -/
theorem C41_equal_primes : ∀ inv : Nat → Nat → Nat, decrypt (keyPair inv 5 7 7).1 (encrypt 5 (keyPair inv 5 7 7).2 7) = 0 := by
  intro inv
  have h : ∀ d, d % 2 = 1 → (0 : Nat) ^ d = 0 := fun d hd => by
    rcases d with _ | d
    · omega
    · simp
  have hd : halfExp inv 5 7 % 2 = 1 := by
    unfold halfExp; dsimp only; split <;> omega
  unfold decrypt encrypt keyPair
  dsimp only
  norm_num
  rw [h _ hd]

end Verif.Props
