import Verif.Sha2.Lemmas
/- Helper lemmas: the streaming state of the SHA-2 model after consuming a message. -/
namespace Verif.Sha2
open Spec (Byte)
open Spec (beNat beBytes pieces)
open Spec.Sha2 (Variant)

variable {w : Nat} {P : Params w} {V : Variant w}

/-- hash value after the full blocks of `m` -/
def chain (V : Variant w) (m : List Byte) : List (BitVec w) :=
  ((pieces (blockBytes w) (m.length / blockBytes w) m).map (Spec.Sha2.blockWords w)).foldl
    (Spec.Sha2.compress V) V.iv

/-- bytes of `m` after its full blocks -/
def rest (w : Nat) (m : List Byte) : List Byte := m.drop (blockBytes w * (m.length / blockBytes w))

/-- The state holds exactly the message `m`. -/
structure Inv (P : Params w) (V : Variant w) (m : List Byte) (st : St w) : Prop where
  h : st.h = chain V m
  hLen : st.h.length = 8
  wLen : st.w.length = P.rounds
  len0 : st.length0.toNat = 8 * m.length % 2 ^ w
  len1 : st.length1.toNat = 8 * m.length / 2 ^ w % 2 ^ w
  words : ∀ i < 16, ∃ old, st.w.getD i 0
    = (((rest w m).drop (w / 8 * i)).take (w / 8)).foldl pushByte old

theorem rest_length (m : List Byte) : (rest w m).length = m.length % blockBytes w := by
  simp only [rest, List.length_drop]
  have := Nat.div_add_mod m.length (blockBytes w)
  omega

theorem rest_append (m : List Byte) (b : Byte) (h : (m.length + 1) / blockBytes w = m.length / blockBytes w) :
    rest w (m ++ [b]) = rest w m ++ [b] := by
  simp only [rest, List.length_append, List.length_singleton, h]
  rw [List.drop_append_of_le_length (Nat.mul_div_le _ _)]

theorem chain_append (m : List Byte) (b : Byte) (h : (m.length + 1) / blockBytes w = m.length / blockBytes w) :
    chain V (m ++ [b]) = chain V m := by
  simp only [chain, List.length_append, List.length_singleton, h]
  rw [Spec.pieces_append _ _ _ _ (Nat.mul_div_le _ _)]

theorem take16_eq (hw : w = 32 ∨ w = 64) (wv : List (BitVec w)) (hl : 16 ≤ wv.length) (p : List Byte)
    (hp : p.length = blockBytes w)
    (hwd : ∀ i < 16, ∃ old, wv.getD i 0 = ((p.drop (w / 8 * i)).take (w / 8)).foldl pushByte old) :
    wv.take 16 = Spec.Sha2.blockWords w p := by
  unfold Spec.Sha2.blockWords
  rw [Spec.pieces_eq_map, List.map_map]
  apply List.ext_getElem
  · simp; omega
  · intro i h1 h2
    have hi : i < 16 := by simp at h1; omega
    obtain ⟨old, ho⟩ := hwd i hi
    rw [foldl_pushByte_full hw] at ho
    · simp only [List.getElem_take, List.getElem_map, List.getElem_range, Function.comp_apply, ← ho]
      rw [List.getD_eq_getElem?_getD, List.getElem?_eq_getElem (by omega)]; rfl
    · simp only [List.length_take, List.length_drop, hp, blockBytes, wordBytes]
      rcases hw with rfl | rfl <;> omega

theorem process_inv (A : Agrees P V) (m : List Byte) (st : St w) (b : Byte) (I : Inv P V m st) :
    Inv P V (m ++ [b]) (process P st b) := by
  have hw := A.hw
  have hr := A.rounds16
  have hcnt : st.length0.toNat / w % 16 = (m.length % blockBytes w) / (w / 8) := by
    rw [I.len0]; rcases hw with rfl | rfl
    · simp only [blockBytes, wordBytes]; omega
    · simp only [blockBytes, wordBytes]; omega
  have hl0 : (st.length0 + 8).toNat = 8 * (m.length + 1) % 2 ^ w := by
    rw [BitVec.toNat_add, I.len0]; rcases hw with rfl | rfl
    · show (8 * m.length % 2 ^ 32 + 8) % 2 ^ 32 = _; omega
    · show (8 * m.length % 2 ^ 64 + 8) % 2 ^ 64 = _; omega
  have hz : (st.length0 + 8 = 0) ↔ 8 * (m.length + 1) % 2 ^ w = 0 := by
    rw [← BitVec.toNat_inj, hl0]; simp
  -- the state after bookkeeping, before the possible block transform
  generalize hst1 : (if st.length0 + 8 = 0 then
      (St.mk 0 (st.length1 + 1) st.h (st.w.set (st.length0.toNat / w % 16)
                  (pushByte (st.w.getD (st.length0.toNat / w % 16) 0) b)) : St w)
    else St.mk (st.length0 + 8) st.length1 st.h (st.w.set (st.length0.toNat / w % 16)
                  (pushByte (st.w.getD (st.length0.toNat / w % 16) 0) b))) = st1
  have hproc : process P st b = if st1.length0.toNat % (16 * w) = 0 then transform P st1 else st1 := by
    rw [← hst1]; rfl
  have h1h : st1.h = st.h := by rw [← hst1]; split <;> rfl
  have h1w : st1.w = st.w.set (st.length0.toNat / w % 16)
      (pushByte (st.w.getD (st.length0.toNat / w % 16) 0) b) := by rw [← hst1]; split <;> rfl
  have h10 : st1.length0.toNat = 8 * (m.length + 1) % 2 ^ w := by
    rw [← hst1]; split
    · rename_i h; rw [hz] at h; simp [h]
    · exact hl0
  have h11 : st1.length1.toNat = 8 * (m.length + 1) / 2 ^ w % 2 ^ w := by
    have e1 := I.len1
    rw [← hst1]; split
    · rename_i h; rw [hz] at h
      simp only [BitVec.toNat_add, e1]
      rcases hw with rfl | rfl
      · show (8 * m.length / 2 ^ 32 % 2 ^ 32 + 1) % 2 ^ 32 = _; omega
      · show (8 * m.length / 2 ^ 64 % 2 ^ 64 + 1) % 2 ^ 64 = _; omega
    · rename_i h; rw [hz] at h
      simp only [e1]
      rcases hw with rfl | rfl
      · omega
      · omega
  -- words of the (possibly full) partial block
  have hrl := rest_length (w := w) m
  have hB : blockBytes w = 16 * (w / 8) := rfl
  have hwb : 0 < w / 8 := by rcases hw with rfl | rfl <;> omega
  have hBpos : 0 < blockBytes w := by omega
  have hmod : m.length % blockBytes w < blockBytes w := Nat.mod_lt _ hBpos
  have hwords : ∀ i < 16, ∃ old, st1.w.getD i 0
      = (((rest w m ++ [b]).drop (w / 8 * i)).take (w / 8)).foldl pushByte old := by
    intro i hi
    obtain ⟨old, ho⟩ := I.words i hi
    refine ⟨old, ?_⟩
    rw [h1w, hcnt]
    have hlt : (m.length % blockBytes w) / (w / 8) < st.w.length := by
      rw [I.wLen]
      have : (m.length % blockBytes w) / (w / 8) < 16 := by
        rw [Nat.div_lt_iff_lt_mul hwb]; omega
      omega
    by_cases hic : i = (m.length % blockBytes w) / (w / 8)
    · rw [← hic]
      rw [List.getD_eq_getElem?_getD, List.getElem?_set_self (by rw [hic]; exact hlt), Option.getD_some, ho]
      have hle : w / 8 * i ≤ (rest w m).length := by rw [hrl, hic]; exact Nat.mul_div_le _ _
      have hlt2 : (rest w m).length < w / 8 * i + w / 8 := by
        rw [hrl, hic]
        have := Nat.lt_mul_div_succ (m.length % blockBytes w) hwb
        rw [Nat.mul_add, Nat.mul_one] at this
        omega
      rw [List.drop_append_of_le_length hle, List.take_of_length_le (by simp; omega),
        List.take_of_length_le (by simp; omega), List.foldl_append]
      rfl
    · rw [List.getD_eq_getElem?_getD, List.getElem?_set_ne (by omega), ← List.getD_eq_getElem?_getD, ho]
      congr 1
      by_cases hlt3 : i < (m.length % blockBytes w) / (w / 8)
      · have : w / 8 * i + w / 8 ≤ (rest w m).length := by
          rw [hrl]
          have h1 := Nat.mul_div_le (m.length % blockBytes w) (w / 8)
          have h2 := Nat.mul_le_mul_left (w / 8) (Nat.succ_le_of_lt hlt3)
          rw [Nat.mul_succ] at h2
          omega
        rw [List.drop_append_of_le_length (by omega), List.take_append_of_le_length (by simp; omega)]
      · have hgt : (m.length % blockBytes w) / (w / 8) + 1 ≤ i := by omega
        have : (rest w m).length < w / 8 * i := by
          rw [hrl]
          have h1 := Nat.lt_mul_div_succ (m.length % blockBytes w) hwb
          have h2 := Nat.mul_le_mul_left (w / 8) hgt
          omega
        rw [List.drop_of_length_le (by omega), List.drop_of_length_le (by simp; omega)]
  have h1wl : st1.w.length = P.rounds := by rw [h1w, List.length_set, I.wLen]
  rw [hproc]
  by_cases hfull : (m.length + 1) % blockBytes w = 0
  · -- block complete
    have hcond : st1.length0.toNat % (16 * w) = 0 := by
      rw [h10]; rcases hw with rfl | rfl
      · simp only [blockBytes, wordBytes] at hfull; omega
      · simp only [blockBytes, wordBytes] at hfull; omega
    rw [if_pos hcond]
    have hdiv : (m.length + 1) / blockBytes w = m.length / blockBytes w + 1 := by
      rcases hw with rfl | rfl
      · simp only [blockBytes, wordBytes] at hfull ⊢; omega
      · simp only [blockBytes, wordBytes] at hfull ⊢; omega
    have hpl : (rest w m ++ [b]).length = blockBytes w := by
      rw [List.length_append, hrl, List.length_singleton]
      rcases hw with rfl | rfl
      · simp only [blockBytes, wordBytes] at hfull ⊢; omega
      · simp only [blockBytes, wordBytes] at hfull ⊢; omega
    have ht16 := take16_eq hw st1.w (by omega) _ hpl hwords
    have hmB : (m.length + 1) = blockBytes w * ((m.length + 1) / blockBytes w) := by
      have := Nat.div_add_mod (m.length + 1) (blockBytes w); omega
    have hrest : rest w (m ++ [b]) = [] := by
      rw [← List.length_eq_zero_iff, rest_length]; simpa using hfull
    refine ⟨?_, transform_h_length _, transform_w_length A _ h1wl, ?_, ?_, ?_⟩
    · rw [transform_h A st1 (by rw [h1h]; exact I.hLen) h1wl, ht16, h1h, I.h]
      simp only [chain, List.length_append, List.length_singleton, hdiv]
      rw [Spec.pieces_succ, List.map_append, List.foldl_append,
        Spec.pieces_append _ _ _ _ (Nat.mul_div_le _ _)]
      simp only [List.map_cons, List.map_nil, List.foldl_cons, List.foldl_nil]
      congr 2
      rw [List.drop_append_of_le_length (Nat.mul_div_le _ _)]
      rw [List.take_of_length_le]
      · rfl
      · have : (rest w m ++ [b]).length ≤ blockBytes w := by omega
        exact this
    · simpa using h10
    · simpa using h11
    · intro i _
      rw [hrest, List.drop_nil, List.take_nil]
      exact ⟨_, rfl⟩
  · have hcond : ¬ st1.length0.toNat % (16 * w) = 0 := by
      rw [h10]; rcases hw with rfl | rfl
      · simp only [blockBytes, wordBytes] at hfull; omega
      · simp only [blockBytes, wordBytes] at hfull; omega
    rw [if_neg hcond]
    have hdiv : (m.length + 1) / blockBytes w = m.length / blockBytes w := by
      rcases hw with rfl | rfl
      · simp only [blockBytes, wordBytes] at hfull ⊢; omega
      · simp only [blockBytes, wordBytes] at hfull ⊢; omega
    refine ⟨?_, by rw [h1h]; exact I.hLen, h1wl, ?_, ?_, ?_⟩
    · rw [h1h, I.h, chain_append m b hdiv]
    · simpa using h10
    · simpa using h11
    · rw [rest_append m b hdiv]; exact hwords

theorem processArray_inv (A : Agrees P V) (m bs : List Byte) (st : St w) (I : Inv P V m st) :
    Inv P V (m ++ bs) (processArray P st bs) := by
  unfold processArray
  induction bs generalizing m st with
  | nil => simpa using I
  | cons b bs ih =>
    have := ih (m ++ [b]) _ (process_inv A m st b I)
    simpa using this

theorem init_inv (A : Agrees P V) (st : St w) (hl : st.w.length = P.rounds) : Inv P V [] (init P st) := by
  have hr := A.rounds16
  refine ⟨?_, A.ivLen, ?_, ?_, ?_, ?_⟩
  · simp [init, chain, pieces, A.iv]
  · simp [init]; omega
  · simp [init]
  · simp [init]
  · intro i _; exact ⟨_, by simp [rest]; rfl⟩

theorem new_inv (A : Agrees P V) : Inv P V [] (new P) := init_inv A _ (by simp)

/-- number of zero bytes the padding loop appends -/
def zerosFor (w n : Nat) : Nat := (blockBytes w - (n + 2 * (w / 8)) % blockBytes w) % blockBytes w

theorem padLoop_inv (A : Agrees P V) (fuel : Nat) (m : List Byte) (st : St w) (I : Inv P V m st)
    (hf : zerosFor w m.length ≤ fuel) :
    Inv P V (m ++ List.replicate (zerosFor w m.length) 0) (padLoop P fuel st) := by
  induction fuel generalizing m st with
  | zero =>
    have : zerosFor w m.length = 0 := by omega
    simpa [this, padLoop] using I
  | succ fuel ih =>
    have hw := A.hw
    unfold padLoop
    have hc : st.length0.toNat % (16 * w) = 14 * w ↔ zerosFor w m.length = 0 := by
      rw [I.len0]; unfold zerosFor blockBytes wordBytes
      rcases hw with rfl | rfl <;> constructor <;> intro h <;> omega
    by_cases hz : zerosFor w m.length = 0
    · rw [if_neg (by rw [hc.mpr hz]; simp)]
      simpa [hz] using I
    · rw [if_pos (fun h => hz (hc.mp h))]
      have hs : zerosFor w m.length = zerosFor w (m ++ [0#8]).length + 1 := by
        rw [List.length_append, List.length_singleton]
        revert hz; unfold zerosFor blockBytes wordBytes
        rcases hw with rfl | rfl <;> intro hz <;> omega
      have := ih (m ++ [0]) _ (process_inv A m st 0 I) (by
        have : zerosFor w (m ++ [0#8]).length + 1 ≤ fuel + 1 := by omega
        simpa using this)
      rw [hs, List.replicate_succ]
      simpa using this

theorem digest_bytes (hw : w = 32 ∨ w = 64) (h : List (BitVec w)) (hl : h.length = 8) (n : Nat) (hn : n ≤ w) :
    (List.range n).map (fun i =>
      (((h.getD (i / wordBytes w) 0) >>> (8 * (wordBytes w - 1 - i % wordBytes w))) &&& 0xff).setWidth 8)
    = (h.flatMap fun x => beBytes (w / 8) x.toNat).take n := by
  have hwb : 0 < w / 8 := by rcases hw with rfl | rfl <;> omega
  have hlen : (h.flatMap fun x => beBytes (w / 8) x.toNat).length = 8 * (w / 8) := by
    rw [List.length_flatMap]
    simp only [Spec.beBytes_length, List.map_const', List.sum_replicate_nat, hl]
  have h8 : 8 * (w / 8) = w := by rcases hw with rfl | rfl <;> rfl
  apply List.ext_getElem
  · simp only [List.length_map, List.length_range, List.length_take, hlen]; omega
  · intro i h1 h2
    have hi : i < n := by simpa using h1
    rw [List.getElem_take]
    have hg := Spec.flatMap_getElem? h (fun x => beBytes (w / 8) x.toNat) (w / 8) hwb (by simp) i
    rw [List.getElem?_eq_getElem (by rw [hlen]; omega)] at hg
    have hq : i / (w / 8) < h.length := by
      rw [hl, Nat.div_lt_iff_lt_mul hwb]; omega
    have hrm : i % (w / 8) < w / 8 := Nat.mod_lt _ hwb
    rw [List.getElem?_eq_getElem hq, Option.bind_some] at hg
    have hb := Spec.beBytes_getD (w / 8) (h[i / (w / 8)]).toNat (i % (w / 8)) hrm
    rw [List.getD_eq_getElem?_getD, ← hg, Option.getD_some] at hb
    rw [hb]
    simp only [List.getElem_map, List.getElem_range, wordBytes]
    rw [List.getD_eq_getElem?_getD, List.getElem?_eq_getElem hq, Option.getD_some]
    apply BitVec.eq_of_toNat_eq
    rw [BitVec.toNat_setWidth, BitVec.toNat_and, BitVec.toNat_ushiftRight, BitVec.toNat_ofNat]
    have hff : (0xff : BitVec w).toNat = 2 ^ 8 - 1 := by
      rcases hw with rfl | rfl <;> rfl
    rw [hff, Nat.and_two_pow_sub_one_eq_mod, Nat.mod_mod, Nat.shiftRight_eq_div_pow,
      Nat.pow_mul]

theorem hash_eq (A : Agrees P V) (m : List Byte) (st : St w) (I : Inv P V m st) :
    (hash P st).1 = Spec.Sha2.digest V m ∧ Inv P V [] (hash P st).2 := by
  have hw := A.hw
  have hr := A.rounds16
  have hwb : 0 < w / 8 := by rcases hw with rfl | rfl <;> omega
  have hB : blockBytes w = 16 * (w / 8) := rfl
  have hSB : Spec.Sha2.blockBytes w = blockBytes w := rfl
  have I1 := process_inv A m st 0x80 I
  have hzl : zerosFor w (m ++ [0x80#8]).length ≤ blockBytes w :=
    Nat.le_of_lt (Nat.mod_lt _ (by omega))
  have I2 := padLoop_inv A (blockBytes w) _ _ I1 hzl
  generalize hm2 : m ++ [0x80#8] ++ List.replicate (zerosFor w (m ++ [0x80#8]).length) 0 = m2 at I2
  generalize hst2 : padLoop P (blockBytes w) (process P st 0x80) = st2 at I2
  -- length facts
  have hm2l : m2.length % blockBytes w = 14 * (w / 8) := by
    rw [← hm2]
    simp only [List.length_append, List.length_singleton, List.length_replicate, zerosFor, blockBytes, wordBytes]
    rcases hw with rfl | rfl <;> omega
  -- the last block
  let lenb := beBytes (2 * (w / 8)) (8 * m.length)
  let wv := (st2.w.set 14 st.length1).set 15 st.length0
  have hpw : (256 : Nat) ^ (w / 8) = 2 ^ w := by rcases hw with rfl | rfl <;> rfl
  have hsplit : lenb = beBytes (w / 8) (8 * m.length / 2 ^ w) ++ beBytes (w / 8) (8 * m.length) := by
    show beBytes (2 * (w / 8)) (8 * m.length) = _
    rw [Nat.two_mul, Spec.beBytes_add, hpw]
  have hrl : (rest w m2).length = 14 * (w / 8) := by rw [rest_length, hm2l]
  have hplen : (rest w m2 ++ lenb).length = blockBytes w := by
    simp only [List.length_append, hrl, lenb, Spec.beBytes_length, hB]; omega
  have hword : ∀ x, (beBytes (w / 8) x).foldl pushByte (0 : BitVec w) = BitVec.ofNat w x := by
    intro x
    rw [foldl_pushByte_full hw _ _ (by simp)]
    apply BitVec.eq_of_toNat_eq
    rw [BitVec.toNat_ofNat, BitVec.toNat_ofNat, Spec.beNat_beBytes, hpw, Nat.mod_mod]
  have hwords : ∀ i < 16, ∃ old, wv.getD i 0
      = (((rest w m2 ++ lenb).drop (w / 8 * i)).take (w / 8)).foldl pushByte old := by
    intro i hi
    have hwl := I2.wLen
    by_cases h14 : i < 14
    · obtain ⟨old, ho⟩ := I2.words i hi
      refine ⟨old, ?_⟩
      have : wv.getD i 0 = st2.w.getD i 0 := by
        simp only [wv, List.getD_eq_getElem?_getD]
        rw [List.getElem?_set_ne (by omega), List.getElem?_set_ne (by omega)]
      rw [this, ho]
      have hle : w / 8 * i + w / 8 ≤ (rest w m2).length := by
        rw [hrl]
        have := Nat.mul_le_mul_left (w / 8) (Nat.succ_le_of_lt h14)
        rw [Nat.mul_succ] at this; omega
      rw [List.drop_append_of_le_length (by omega), List.take_append_of_le_length (by simp; omega)]
    · refine ⟨0, ?_⟩
      have hd14 : (rest w m2 ++ lenb).drop (w / 8 * 14) = lenb := by
        rw [List.drop_append, List.drop_of_length_le (by omega), hrl, List.nil_append,
          Nat.mul_comm, Nat.sub_self, List.drop_zero]
      rcases (by omega : i = 14 ∨ i = 15) with rfl | rfl
      · rw [hd14, hsplit, List.take_append_of_le_length (by simp), List.take_of_length_le (by simp), hword]
        simp only [wv, List.getD_eq_getElem?_getD]
        rw [List.getElem?_set_ne (by omega), List.getElem?_set_self (by omega), Option.getD_some]
        apply BitVec.eq_of_toNat_eq
        rw [I.len1, BitVec.toNat_ofNat]
      · have : (rest w m2 ++ lenb).drop (w / 8 * 15) = beBytes (w / 8) (8 * m.length) := by
          rw [show w / 8 * 15 = w / 8 * 14 + w / 8 by omega, ← List.drop_drop, hd14, hsplit,
            List.drop_append, List.drop_of_length_le (by simp)]
          simp
        rw [this, List.take_of_length_le (by simp), hword]
        simp only [wv, List.getD_eq_getElem?_getD]
        rw [List.getElem?_set_self (by rw [List.length_set]; omega), Option.getD_some]
        apply BitVec.eq_of_toNat_eq
        rw [I.len0, BitVec.toNat_ofNat]
  have hwvl : wv.length = P.rounds := by simp [wv, I2.wLen]
  have ht16 := take16_eq hw wv (by omega) _ hplen hwords
  have hT := transform_h A { st2 with w := wv } I2.hLen hwvl
  simp only at hT
  rw [ht16] at hT
  -- specification side
  have hpad : Spec.Sha2.pad w m = m2 ++ lenb := by
    rw [← hm2]
    simp only [Spec.Sha2.pad, lenb, hSB]
    congr 3
    simp only [zerosFor, List.length_append, List.length_singleton]
  have hplen2 : (m2 ++ lenb).length / blockBytes w = m2.length / blockBytes w + 1 := by
    have h1 := Nat.div_add_mod m2.length (blockBytes w)
    rw [hm2l] at h1
    have h2 : (m2 ++ lenb).length = blockBytes w * (m2.length / blockBytes w + 1) := by
      simp only [List.length_append, lenb, Spec.beBytes_length, Nat.mul_succ]
      omega
    rw [h2, Nat.mul_div_cancel_left _ (by omega)]
  have hchain : ((pieces (blockBytes w) ((m2 ++ lenb).length / blockBytes w) (m2 ++ lenb)).map
      (Spec.Sha2.blockWords w)).foldl (Spec.Sha2.compress V) V.iv
      = Spec.Sha2.compress V (chain V m2) (Spec.Sha2.blockWords w (rest w m2 ++ lenb)) := by
    rw [hplen2, Spec.pieces_succ, Spec.pieces_append _ _ _ _ (Nat.mul_div_le _ _), List.map_append,
      List.foldl_append]
    simp only [List.map_cons, List.map_nil, List.foldl_cons, List.foldl_nil, chain]
    congr 2
    rw [List.drop_append_of_le_length (Nat.mul_div_le _ _), List.take_of_length_le]
    · rfl
    · exact Nat.le_of_eq hplen
  have hst : hash P st = ((List.range P.hashBytes).map fun i =>
      ((((transform P { st2 with w := wv }).h.getD (i / wordBytes w) 0)
        >>> (8 * (wordBytes w - 1 - i % wordBytes w))) &&& 0xff).setWidth 8,
      init P (transform P { st2 with w := wv })) := by
    simp only [hash, hst2]
    rfl
  rw [hst]
  constructor
  · show List.map _ _ = _
    rw [digest_bytes hw _ (transform_h_length _) _ A.outLe, hT, I2.h]
    simp only [Spec.Sha2.digest, hSB, hpad, hchain, A.out]
  · exact init_inv A _ (transform_w_length A _ hwvl)

theorem digest_eq (A : Agrees P V) (m : List Byte) : digest P m = Spec.Sha2.digest V m := by
  have I0 : Inv P V [] (init P (new P)) := init_inv A _ (new_inv A).wLen
  have := processArray_inv A [] m _ I0
  exact (hash_eq A _ _ (by simpa using this)).1

end Verif.Sha2
