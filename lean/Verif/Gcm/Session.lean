import Verif.Gcm.Ghash
import Verif.Aes.Block
/- Helper lemmas: a GCM object follows the session of the specification. -/
namespace Verif.Gcm
open Verif.Aes (AES wd bt Byte Keyed)
open Spec (beNat beBytes)
open Spec.Gcm (toBV ofBV mulX mul ghashFrom blocks lenBlock inc32 incBy gctr Session Phase)

theorem pack_eq (a b c d : Byte) : pack [a, b, c, d] = BitVec.ofNat 32 (beNat [a, b, c, d]) := by
  apply BitVec.eq_of_getLsbD_eq
  intro i hi
  rw [pack_bit _ _ hi, BitVec.getLsbD_ofNat, beNat_testBit, bt_reverse _ _ (by simp; omega)]
  simp [hi]

theorem beNat_unpack (w : BitVec 32) : beNat (unpack w) = w.toNat := by
  have h := pack_unpack w
  have hlt := Spec.beNat_lt (unpack w)
  unfold unpack at h hlt ⊢
  rw [pack_eq] at h
  have := congrArg BitVec.toNat h
  rw [BitVec.toNat_ofNat, Nat.mod_eq_of_lt (by simpa using hlt)] at this
  exact this

theorem unpack_eq (w : BitVec 32) : unpack w = beBytes 4 w.toNat := by
  rw [← beNat_unpack]
  exact (Spec.beBytes_beNat (unpack w)).symm

theorem incCounter_eq (f : List Byte) (hf : f.length = 16) : incCounter f = inc32 f := by
  unfold incCounter inc32
  rw [unpack_eq, pack_eq]
  have e : [bt f 12, bt f 13, bt f 14, bt f 15] = f.drop 12 := by
    apply List.ext_getElem
    · simp [hf]
    · intro i h1 h2
      simp at h1
      have : i = 0 ∨ i = 1 ∨ i = 2 ∨ i = 3 := by omega
      rcases this with rfl | rfl | rfl | rfl <;> simp [bt, hf]
  rw [e]
  have hlt := Spec.beNat_lt (f.drop 12)
  rw [show (f.drop 12).length = 4 by simp [hf]] at hlt
  rw [BitVec.toNat_add, BitVec.toNat_ofNat, Nat.mod_eq_of_lt (a := beNat (f.drop 12)) (by simpa using hlt)]
  rfl

theorem inc32_length (f : List Byte) (hf : f.length = 16) : (inc32 f).length = 16 := by simp [inc32, hf]
theorem incBy_length (k : Nat) (f : List Byte) (hf : f.length = 16) : (incBy k f).length = 16 := by
  induction k with
  | zero => exact hf
  | succ k ih => exact inc32_length _ ih
theorem incBy_inc32 (k : Nat) (f : List Byte) : incBy k (inc32 f) = incBy (k + 1) f := by
  induction k with
  | zero => rfl
  | succ k ih => rw [incBy, ih]; rfl
theorem incBy_add (k m : Nat) (f : List Byte) : incBy k (incBy m f) = incBy (m + k) f := by
  induction k with
  | zero => rfl
  | succ k ih => rw [incBy, ih]; rfl

section
variable {E : List Byte → List Byte} (hE : ∀ x, (E x).length = 16)
include hE

theorem gctr_cons (icb x : List Byte) (hx : x ≠ []) :
    gctr E icb x = List.zipWith (· ^^^ ·) (x.take 16) (E icb) ++ gctr E (inc32 icb) (x.drop 16) := by
  have hp := List.length_pos_iff.2 hx
  unfold gctr
  rw [show (x.length + 15) / 16 = ((x.drop 16).length + 15) / 16 + 1 by simp; omega, List.range_succ_eq_map]
  simp only [List.flatMap_cons, List.flatMap_map]
  have e : ∀ i, E (incBy (i + 1) icb) = E (incBy i (inc32 icb)) := fun i => by rw [incBy_inc32]
  simp only [e]
  generalize hks : (List.range (((x.drop 16).length + 15) / 16)).flatMap (fun i => E (incBy i (inc32 icb))) = ks
  show List.zipWith (· ^^^ ·) x (E icb ++ ks) = _
  by_cases h16 : 16 ≤ x.length
  · conv_lhs => rw [← List.take_append_drop 16 x]
    rw [List.zipWith_append (by simp [hE, h16])]
  · rw [List.drop_of_length_le (by omega : x.length ≤ 16)] at hks ⊢
    simp only [List.zipWith_nil_left, List.append_nil]
    have : ks = [] := by rw [← hks]; rfl
    rw [this, List.append_nil, List.take_of_length_le (by omega)]

theorem gctr_nil (icb : List Byte) : gctr E icb [] = [] := rfl

theorem gctr_length (icb x : List Byte) : (gctr E icb x).length = x.length := by
  have : ∀ k icb, ((List.range k).flatMap fun i => E (incBy i icb)).length = 16 * k := by
    intro k icb
    induction k with
    | zero => rfl
    | succ k ih => rw [List.range_succ, List.flatMap_append, List.length_append, ih]; simp [hE]; ring
  rw [gctr, List.length_zipWith, this]
  omega

theorem gctr_gctr (icb x : List Byte) : gctr E icb (gctr E icb x) = x := by
  have hl := gctr_length hE icb x
  unfold gctr at hl ⊢
  rw [hl]
  generalize hk : (List.range ((x.length + 15) / 16)).flatMap (fun i => E (incBy i icb)) = ks at *
  have hks : x.length ≤ ks.length := by simp at hl; omega
  clear hk hl
  induction x generalizing ks with
  | nil => rfl
  | cons a as ih =>
    cases ks with
    | nil => simp at hks
    | cons k ks => simp [BitVec.xor_assoc, ih ks (by simpa using hks)]

theorem gctr_append (icb x y : List Byte) (hx : x.length % 16 = 0) :
    gctr E icb (x ++ y) = gctr E icb x ++ gctr E (incBy (x.length / 16) icb) y := by
  obtain ⟨k, hk⟩ : ∃ k, x.length = 16 * k := ⟨x.length / 16, by omega⟩
  induction k generalizing x icb with
  | zero =>
    have : x = [] := List.length_eq_zero_iff.1 (by omega)
    subst this; simp [gctr, incBy]
  | succ k ih =>
    have hne : x ≠ [] := by intro e; subst e; simp at hk
    rw [gctr_cons hE icb x hne, gctr_cons hE icb (x ++ y) (by simp [hne]), List.take_append_of_le_length (by omega), List.drop_append_of_le_length (by omega),
      ih (inc32 icb) (x.drop 16) (by simp; omega) (by simp; omega), incBy_inc32, List.append_assoc]
    congr 3
    simp; congr 1; omega

end

attribute [local irreducible] gf2mul precompute xorIn bumps

/-- text state after a loop -/
def upd (g : GCM) (f sx : List Byte) (l : BitVec 32 × BitVec 32) : GCM := { g with a := { g.a with f := f }, statex := sx, lenc := l }

theorem headerLoop_eq (h : List Byte) (hh : h.length = 16) (data : List Byte) : ∀ g : GCM, g.table = precompute h → g.statex.length = 16 →
    ∃ l, cnt l = (cnt g.lena + data.length) % 2 ^ 64 ∧
      headerLoop g data = { g with statex := ofBV (ghashFrom (toBV h) (toBV g.statex) (blocks data)), lena := l } := by
  induction hn : data.length using Nat.strong_induction_on generalizing data with
  | _ n ih =>
    intro g ht hs
    rw [headerLoop]
    split
    · next he =>
      subst he
      refine ⟨g.lena, ?_, ?_⟩
      · simp at hn; subst hn; rw [Nat.add_zero, Nat.mod_eq_of_lt (cnt_lt _)]
      · rw [blocks_nil]
        simp only [ghashFrom, List.foldl_nil, ofBV_toBV _ hs]
    · next he =>
      have hp := List.length_pos_iff.2 he
      have hx := xorIn_length g.statex (data.take 16) hs (by simp)
      have hm := gf2mul_eq h hh _ hx
      rw [← ht] at hm
      have hgl := (congrArg List.length hm).trans (ofBV_length _)
      obtain ⟨l, hl, he2⟩ := ih (data.drop 16).length (by simp; omega) (data.drop 16) rfl
        { g with statex := gf2mul g.table (xorIn g.statex (data.take 16)), lena := bumps (data.take 16).length g.lena } ht
        hgl
      refine ⟨l, ?_, ?_⟩
      · rw [hl, cnt_bumps]
        simp only [List.length_take, List.length_drop]
        omega
      · simp only []
        rw [he2]
        rw [hm, toBV_ofBV, blocks_cons data he, toBV_xorIn _ _ hs (by simp)]
        rfl

theorem ghashLoop_eq (h : List Byte) (hh : h.length = 16) (data : List Byte) : ∀ g : GCM, g.table = precompute h → g.statex.length = 16 →
    ∃ l, cnt l = (cnt g.lenc + data.length) % 2 ^ 64 ∧
      ghashLoop g data = { g with statex := ofBV (ghashFrom (toBV h) (toBV g.statex) (blocks data)), lenc := l } := by
  induction hn : data.length using Nat.strong_induction_on generalizing data with
  | _ n ih =>
    intro g ht hs
    rw [ghashLoop]
    split
    · next he =>
      subst he
      refine ⟨g.lenc, ?_, ?_⟩
      · simp at hn; subst hn; rw [Nat.add_zero, Nat.mod_eq_of_lt (cnt_lt _)]
      · rw [blocks_nil]
        simp only [ghashFrom, List.foldl_nil, ofBV_toBV _ hs]
    · next he =>
      have hp := List.length_pos_iff.2 he
      have hx := xorIn_length g.statex (data.take 16) hs (by simp)
      have hm := gf2mul_eq h hh _ hx
      rw [← ht] at hm
      have hgl := (congrArg List.length hm).trans (ofBV_length _)
      obtain ⟨l, hl, he2⟩ := ih (data.drop 16).length (by simp; omega) (data.drop 16) rfl
        { g with statex := gf2mul g.table (xorIn g.statex (data.take 16)), lenc := bumps (data.take 16).length g.lenc } ht
        hgl
      refine ⟨l, ?_, ?_⟩
      · rw [hl, cnt_bumps]
        simp only [List.length_take, List.length_drop]
        omega
      · simp only []
        rw [he2]
        rw [hm, toBV_ofBV, blocks_cons data he, toBV_xorIn _ _ hs (by simp)]
        rfl

theorem plainLoop_eq (h : List Byte) (hh : h.length = 16) {nk : Nat} {key : List Byte} (data : List Byte) :
    ∀ (g : GCM) (out : List Byte), Keyed g.a nk key → g.table = precompute h → g.statex.length = 16 → g.a.f.length = 16 →
    ∃ l, cnt l = (cnt g.lenc + data.length) % 2 ^ 64 ∧
      plainLoop g out data = (upd g (incBy ((data.length + 15) / 16) g.a.f) (ofBV (ghashFrom (toBV h) (toBV g.statex) (blocks (gctr (Spec.Aes.cipher nk key) (inc32 g.a.f) data)))) l,
        out ++ gctr (Spec.Aes.cipher nk key) (inc32 g.a.f) data) := by
  induction hn : data.length using Nat.strong_induction_on generalizing data with
  | _ n ih =>
    intro g out hk ht hs hf
    have hE : ∀ x, (Spec.Aes.cipher nk key x).length = 16 := fun x => Aes.cipher_length hk.hnk hk.hl x
    rw [plainLoop]
    split
    · next he =>
      subst he
      simp at hn
      subst hn
      refine ⟨g.lenc, ?_, ?_⟩
      · rw [Nat.add_zero, Nat.mod_eq_of_lt (cnt_lt _)]
      · rw [gctr_nil hE, blocks_nil, List.append_nil]
        simp only [ghashFrom, List.foldl_nil, ofBV_toBV _ hs]
        rfl
    · next he =>
      have hp := List.length_pos_iff.2 he
      have hf' := inc32_length _ hf
      have hcb : Aes.ecbEncrypt g.a (inc32 g.a.f) = Spec.Aes.cipher nk key (inc32 g.a.f) := by
        rw [Aes.ecbEncrypt_eq hk _ hf']
      have hcl : (List.zipWith (· ^^^ ·) (data.take 16) (Spec.Aes.cipher nk key (inc32 g.a.f))).length = (data.take 16).length := by
        simp [hE]
      generalize hc : List.zipWith (· ^^^ ·) (data.take 16) (Spec.Aes.cipher nk key (inc32 g.a.f)) = c at hcl
      have hc16 : c.length ≤ 16 := by rw [hcl]; simp
      have hx := xorIn_length g.statex c hs hc16
      have hm := gf2mul_eq h hh _ hx
      rw [← ht] at hm
      have hgl := (congrArg List.length hm).trans (ofBV_length _)
      obtain ⟨l, hl, he2⟩ := ih (data.drop 16).length (by simp; omega) (data.drop 16) rfl
        { g with a := { g.a with f := inc32 g.a.f }, statex := gf2mul g.table (xorIn g.statex c), lenc := bumps (data.take 16).length g.lenc } (out ++ c)
        ⟨hk.hnk, hk.hl, hk.nr, hk.fk, hk.rk⟩ ht
        hgl hf'
      refine ⟨l, ?_, ?_⟩
      · rw [hl, cnt_bumps]
        simp only [List.length_take, List.length_drop]
        omega
      · simp only [incCounter_eq _ hf, hcb, hc]
        refine he2.trans ?_
        have hg : gctr (Spec.Aes.cipher nk key) (inc32 g.a.f) data = c ++ gctr (Spec.Aes.cipher nk key) (inc32 (inc32 g.a.f)) (data.drop 16) := by
          rw [gctr_cons hE _ _ he, hc]
        have hb : blocks (gctr (Spec.Aes.cipher nk key) (inc32 g.a.f) data)
            = toBV (c ++ List.replicate (16 - c.length) 0) :: blocks (gctr (Spec.Aes.cipher nk key) (inc32 (inc32 g.a.f)) (data.drop 16)) := by
          have hne : gctr (Spec.Aes.cipher nk key) (inc32 g.a.f) data ≠ [] := by
            intro e
            have := gctr_length hE (inc32 g.a.f) data
            rw [e] at this; simp at this; omega
          rw [blocks_cons _ hne, hg]
          by_cases h16 : 16 ≤ data.length
          · have : c.length = 16 := by rw [hcl]; simp [h16]
            rw [List.take_append_of_le_length (by omega), List.take_of_length_le (by omega), List.drop_append, List.drop_of_length_le (by omega), this]
            simp
          · rw [List.drop_of_length_le (l := data) (by omega), gctr_nil hE, List.append_nil, List.take_of_length_le (by omega), List.drop_of_length_le (by omega)]
        simp only [upd]
        rw [hm, toBV_ofBV, hb, toBV_xorIn _ _ hs hc16, hg, incBy_inc32, List.append_assoc,
          show ((data.drop 16).length + 15) / 16 + 1 = (n + 15) / 16 by simp; omega]
        rfl

theorem cipherLoop_eq (h : List Byte) (hh : h.length = 16) {nk : Nat} {key : List Byte} (data : List Byte) :
    ∀ (g : GCM) (out : List Byte), Keyed g.a nk key → g.table = precompute h → g.statex.length = 16 → g.a.f.length = 16 →
    ∃ l, cnt l = (cnt g.lenc + data.length) % 2 ^ 64 ∧
      cipherLoop g out data = (upd g (incBy ((data.length + 15) / 16) g.a.f) (ofBV (ghashFrom (toBV h) (toBV g.statex) (blocks data))) l,
        out ++ gctr (Spec.Aes.cipher nk key) (inc32 g.a.f) data) := by
  induction hn : data.length using Nat.strong_induction_on generalizing data with
  | _ n ih =>
    intro g out hk ht hs hf
    have hE : ∀ x, (Spec.Aes.cipher nk key x).length = 16 := fun x => Aes.cipher_length hk.hnk hk.hl x
    rw [cipherLoop]
    split
    · next he =>
      subst he
      simp at hn
      subst hn
      refine ⟨g.lenc, ?_, ?_⟩
      · rw [Nat.add_zero, Nat.mod_eq_of_lt (cnt_lt _)]
      · rw [gctr_nil hE, blocks_nil, List.append_nil]
        simp only [ghashFrom, List.foldl_nil, ofBV_toBV _ hs]
        rfl
    · next he =>
      have hp := List.length_pos_iff.2 he
      have hf' := inc32_length _ hf
      have hcb : Aes.ecbEncrypt g.a (inc32 g.a.f) = Spec.Aes.cipher nk key (inc32 g.a.f) := by
        rw [Aes.ecbEncrypt_eq hk _ hf']
      have hx := xorIn_length g.statex (data.take 16) hs (by simp)
      have hm := gf2mul_eq h hh _ hx
      rw [← ht] at hm
      have hgl := (congrArg List.length hm).trans (ofBV_length _)
      obtain ⟨l, hl, he2⟩ := ih (data.drop 16).length (by simp; omega) (data.drop 16) rfl
        { g with a := { g.a with f := inc32 g.a.f }, statex := gf2mul g.table (xorIn g.statex (data.take 16)), lenc := bumps (data.take 16).length g.lenc }
        (out ++ List.zipWith (· ^^^ ·) (data.take 16) (Spec.Aes.cipher nk key (inc32 g.a.f)))
        ⟨hk.hnk, hk.hl, hk.nr, hk.fk, hk.rk⟩ ht
        hgl hf'
      refine ⟨l, ?_, ?_⟩
      · rw [hl, cnt_bumps]
        simp only [List.length_take, List.length_drop]
        omega
      · simp only [incCounter_eq _ hf, hcb]
        refine he2.trans ?_
        simp only [upd]
        rw [hm, toBV_ofBV, blocks_cons data he, toBV_xorIn _ _ hs (by simp), gctr_cons hE _ _ he, incBy_inc32, List.append_assoc,
          show ((data.drop 16).length + 15) / 16 + 1 = (n + 15) / 16 by simp; omega]
        rfl

end Verif.Gcm
