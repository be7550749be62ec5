import Verif.Rand.Lemmas
import Verif.Sha2.Hmac
/- Seeding and the byte stream of `Verif/Rand/Model.lean`. -/
namespace Verif.Rand
open Spec.Swb (W step value stir seedSeq word seeded)
open Verif.Sha2 (P256)
attribute [local irreducible] Spec.Swb.step

theorem pack_eq (b0 b1 b2 b3 : Byte) : pack b0 b1 b2 b3 = b3 ++ b2 ++ b1 ++ b0 := by
  have hm : ∀ b : Byte, (b.setWidth 32 &&& 0xff : BitVec 32) = b.setWidth 32 := by
    intro b
    apply BitVec.eq_of_toNat_eq
    rw [BitVec.toNat_and]
    have : (0xff : BitVec 32).toNat = 2 ^ 8 - 1 := rfl
    rw [this, Nat.and_two_pow_sub_one_eq_mod, BitVec.toNat_setWidth]
    have := b.isLt
    omega
  unfold pack
  rw [hm, hm, hm, hm]
  apply BitVec.eq_of_getLsbD_eq
  intro i hi
  simp only [BitVec.getLsbD_or, BitVec.getLsbD_shiftLeft, BitVec.getLsbD_setWidth, BitVec.getLsbD_append]
  by_cases h1 : i < 8
  · have e1 : i < 24 := by omega
    have e2 : i < 16 := by omega
    simp [h1, e1, e2, hi]
  · by_cases h2 : i < 16
    · have e1 : i < 24 := by omega
      have e3 : i - 8 < 8 := by omega
      have e4 : ¬ i < 8 := h1
      rw [BitVec.getLsbD_of_ge b0 i (by omega)]
      simp [e1, h2, e3, e4, hi]
      intro; omega
    · by_cases h3 : i < 24
      · have e3 : ¬ i - 8 < 8 := by omega
        have e4 : i - 8 - 8 < 8 := by omega
        have e5 : i - 8 - 8 = i - 16 := by omega
        rw [BitVec.getLsbD_of_ge b0 i (by omega), BitVec.getLsbD_of_ge b1 (i - 8) (by omega)]
        have e7 : i - 16 < 8 := by omega
        have e8 : i - 16 < 32 := by omega
        simp [h1, h2, h3, e3, e5, e7, e8, hi]
      · have e3 : ¬ i - 8 < 8 := by omega
        have e4 : ¬ i - 16 < 8 := by omega
        have e5 : i - 8 - 8 = i - 16 := by omega
        have e6 : i - 16 - 8 = i - 24 := by omega
        rw [BitVec.getLsbD_of_ge b0 i (by omega), BitVec.getLsbD_of_ge b1 (i - 8) (by omega), BitVec.getLsbD_of_ge b2 (i - 16) (by omega)]
        simp [h1, h2, h3, e3, e4, e5, e6, hi]
        omega

/-- entry `j` of the window after `k` iterations of the seeding loop -/
def stirK (w : List (BitVec 32)) (s : BitVec 32) (k j : Nat) : BitVec 32 :=
  if j = 0 then w.getD 0 0 ^^^ s
  else match (List.range k).find? (fun i => 8 * (i + 1) % 21 == j) with
    | some i => w.getD j 0 ^^^ (seedSeq s i).1
    | none => w.getD j 0

theorem distinct : ∀ k : Fin 20, (List.range k.val).find? (fun i => 8 * (i + 1) % 21 == 8 * (k.val + 1) % 21) = none ∧ 8 * (k.val + 1) % 21 ≠ 0 := by
  decide

theorem getD_map_range (f : Nat → BitVec 32) (n j : Nat) (h : j < n) : ((List.range n).map f).getD j 0 = f j := by
  rw [List.getD_eq_getElem?_getD, List.getElem?_map, List.getElem?_range h]; rfl

theorem stir_loop (w : List (BitVec 32)) (hw : w.length = 21) (s : BitVec 32) (k : Nat) (hk : k ≤ 20) :
    (List.range k).foldl (fun st i => siStep st (i + 1)) (w.set 0 (w.getD 0 0 ^^^ s), 1, s) =
      ((List.range 21).map (stirK w s k), (seedSeq s k).1, (seedSeq s k).2) := by
  induction k with
  | zero =>
    refine Prod.ext ?_ rfl
    show w.set 0 (w.getD 0 0 ^^^ s) = _
    apply List.ext_getElem
    · simp [hw]
    · intro j h1 h2
      rw [List.getElem_set]
      simp only [List.getElem_map, List.getElem_range]
      unfold stirK
      rw [List.length_set] at h1
      split
      · rename_i h; rw [if_pos h.symm]
      · rename_i h
        rw [if_neg (by omega)]
        simp [List.getElem?_eq_getElem h1]
  | succ k ih =>
    rw [List.range_succ, List.foldl_append, ih (by omega), List.foldl_cons, List.foldl_nil]
    obtain ⟨d1, d2⟩ := distinct ⟨k, by omega⟩
    dsimp only at d1 d2
    have hlt : 8 * (k + 1) % 21 < 21 := Nat.mod_lt _ (by decide)
    unfold siStep
    dsimp only
    generalize hinn : 8 * (k + 1) % 21 = inn at *
    rw [getD_map_range _ _ _ hlt]
    refine Prod.ext ?_ rfl
    dsimp only
    apply List.ext_getElem
    · simp
    · intro j h1 h2
      rw [List.getElem_set]
      simp only [List.getElem_map, List.getElem_range]
      split
      · rename_i h
        subst h
        unfold stirK
        rw [if_neg d2, if_neg d2, d1, List.range_succ, List.find?_append, d1]
        have : ([k] : List Nat).find? (fun i => 8 * (i + 1) % 21 == inn) = some k := by simp [hinn]
        rw [this]
        rfl
      · rename_i h
        unfold stirK
        split
        · rfl
        · rw [List.range_succ, List.find?_append]
          have : ([k] : List Nat).find? (fun i => 8 * (i + 1) % 21 == j) = none := by simp [hinn, h]
          rw [this, Option.or_none]

theorem sirand_at {s : W} {h : RAND} (hl : h.ira.length = 21) (hi : h.ira = s.1) (sd : BitVec 32) :
    At (step^[9996] (stir s.1 sd, false)) 4 (sirand h sd) := by
  have e : (List.range' 1 20).foldl siStep (h.ira.set 0 (h.ira.getD 0 0 ^^^ sd), 1, sd)
      = (stir s.1 sd, (seedSeq sd 20).1, (seedSeq sd 20).2) := by
    have e0 : List.range' 1 20 = (List.range 20).map (· + 1) := by decide
    rw [e0, List.foldl_map, stir_loop h.ira hl sd 20 (by omega), hi]
    rfl
  unfold sirand
  dsimp only
  rw [e]
  have ls : (stir s.1 sd).length = 21 := by simp [stir]
  have := discard 10000 (s := (stir s.1 sd, false)) (h := { h with ira := stir s.1 sd, borrow := 0, rndptr := 0 }) ⟨ls, rfl, rfl, rfl, by omega⟩
  have e1 : 21 * (10000 / 21) = 9996 := by decide
  have e2 : 10000 % 21 = 4 := by decide
  rw [e1, e2] at this
  exact this

/-- groups of 128 low bytes -/
def poolOf (x : Nat → BitVec 32) : List Byte := Spec.Sha2.digest Spec.Sha2.SHA256 ((List.range 128).map fun i => (x i).setWidth 8)

theorem low_byte (v : BitVec 32) : (v &&& 0xff).setWidth 8 = v.setWidth 8 := by
  apply BitVec.eq_of_toNat_eq
  have : (0xff : BitVec 32).toNat = 2 ^ 8 - 1 := rfl
  rw [BitVec.toNat_setWidth, BitVec.toNat_and, this, Nat.and_two_pow_sub_one_eq_mod, BitVec.toNat_setWidth, Nat.mod_mod]

theorem fillPool_at {s : W} {p : Nat} {h : RAND} (H : At s p h) :
    (∃ s' p', At s' p' (fillPool h) ∧ ∀ j, out s' p' j = out s p (128 + j)) ∧ (fillPool h).pool = poolOf (out s p) ∧ (fillPool h).poolPtr = 0 := by
  obtain ⟨a, ⟨s', p', A, o⟩, c, d⟩ := sbMany_at 128 H
  unfold fillPool
  dsimp only
  generalize sbMany 128 h = R at *
  refine ⟨⟨s', p', ⟨A.len, A.ira, A.bor, A.ptr, A.lt⟩, o⟩, ?_, rfl⟩
  rw [a]
  unfold poolOf
  have I := Sha2.processArray_inv Sha2.agrees256 [] ((List.range 128).map fun i => (out s p i).setWidth 8) _ (Sha2.new_inv Sha2.agrees256)
  have e : ((List.range 128).map (out s p)).foldl (fun sh v => Sha2.process P256 sh ((v &&& 0xff).setWidth 8)) (Sha2.new P256)
      = Sha2.processArray P256 (Sha2.new P256) ((List.range 128).map fun i => (out s p i).setWidth 8) := by
    unfold Sha2.processArray
    rw [List.foldl_map, List.foldl_map]
    simp only [low_byte]
  rw [e, (Sha2.hash_eq Sha2.agrees256 _ _ I).1, List.nil_append]

theorem poolOf_length (x : Nat → BitVec 32) : (poolOf x).length = 32 := by
  unfold poolOf
  rw [← Sha2.digest_eq Sha2.agrees256, Sha2.digest_length]
  rfl

/-- the byte stream of a generator whose values still to come are `x` with `k` bytes of the current pool used;
`prev` are the values that made the current pool -/
theorem getbyte_stream (n : Nat) : ∀ {s : W} {p : Nat} {h : RAND} (prev : Nat → BitVec 32), At s p h → h.pool = poolOf prev → h.poolPtr < 32 →
    (∀ j, out s p j = prev (128 + j)) →
    (Spec.draw getbyte n h).1 = (List.range n).map fun i =>
      (poolOf (fun j => prev (128 * ((h.poolPtr + i) / 32) + j))).getD ((h.poolPtr + i) % 32) 0 := by
  induction n with
  | zero => intros; rfl
  | succ n ih =>
    intro s p h prev H hpool hptr ho
    rw [List.range_succ_eq_map, List.map_cons, List.map_map]
    show (getbyte h).1 :: (Spec.draw getbyte n (getbyte h).2).1 = _
    have e0 : (h.poolPtr + 0) / 32 = 0 := by omega
    have e1 : (h.poolPtr + 0) % 32 = h.poolPtr := by omega
    rw [e0, e1, Nat.mul_zero]
    simp only [Nat.zero_add]
    have hg : (getbyte h).1 = (poolOf prev).getD h.poolPtr 0 := by
      unfold getbyte; dsimp only; rw [hpool]; split <;> rfl
    rw [hg]
    congr 1
    by_cases hp : h.poolPtr + 1 ≥ 32
    · have hs : (getbyte h).2 = fillPool { h with poolPtr := h.poolPtr + 1 } := by
        unfold getbyte; dsimp only; rw [if_pos hp]
      have H' : At s p { h with poolPtr := h.poolPtr + 1 } := ⟨H.len, H.ira, H.bor, H.ptr, H.lt⟩
      obtain ⟨⟨s', p', A, o⟩, f1, f2⟩ := fillPool_at H'
      rw [hs, ih (fun j => prev (128 + j)) A (by rw [f1]; congr 1; funext j; exact ho j) (by rw [f2]; omega) (fun j => by rw [o, ho]), f2]
      apply List.map_congr_left
      intro i _
      have a1 : (h.poolPtr + (i + 1)) / 32 = (0 + i) / 32 + 1 := by omega
      have a2 : (h.poolPtr + (i + 1)) % 32 = (0 + i) % 32 := by omega
      dsimp only [Function.comp, Nat.succ_eq_add_one]
      rw [a1, a2]
      congr 2
      funext j
      congr 1
      omega
    · have hs : (getbyte h).2 = { h with poolPtr := h.poolPtr + 1 } := by
        unfold getbyte; dsimp only; rw [if_neg hp]
      have H' : At s p { h with poolPtr := h.poolPtr + 1 } := ⟨H.len, H.ira, H.bor, H.ptr, H.lt⟩
      rw [hs, ih prev H' hpool (by show h.poolPtr + 1 < 32; omega) ho]
      apply List.map_congr_left
      intro i _
      have a1 : h.poolPtr + (i + 1) = h.poolPtr + 1 + i := by omega
      dsimp only [Function.comp, Nat.succ_eq_add_one]
      rw [a1]

theorem seed_at (h : RAND) (raw : List Byte) (hr : 0 < raw.length) :
    ∃ h1, At (seeded raw) 4 h1 ∧ seed h raw = fillPool h1 := by
  have hd : (Sha2.hash P256 (raw.foldl (Sha2.process P256) (Sha2.new P256))).1 = Spec.Sha2.digest Spec.Sha2.SHA256 raw := by
    have I := Sha2.processArray_inv Sha2.agrees256 [] raw _ (Sha2.new_inv Sha2.agrees256)
    have := (Sha2.hash_eq Sha2.agrees256 _ _ I).1
    rw [List.nil_append] at this
    exact this
  unfold seed seeded
  dsimp only
  rw [if_pos hr, hd]
  generalize Spec.Sha2.digest Spec.Sha2.SHA256 raw = d
  refine ⟨_, ?_, rfl⟩
  have key : ∀ k, At ((List.range (k + 1)).foldl (fun s i => step^[9996] (stir s.1 (word d i), false)) (List.replicate 21 0, false)) 4
      ((List.range (k + 1)).foldl (fun h i => sirand h (pack (d.getD (4 * i) 0) (d.getD (4 * i + 1) 0) (d.getD (4 * i + 2) 0) (d.getD (4 * i + 3) 0)))
        { h with poolPtr := 0, ira := List.replicate 21 0 }) := by
    intro k
    have hw : ∀ i, pack (d.getD (4 * i) 0) (d.getD (4 * i + 1) 0) (d.getD (4 * i + 2) 0) (d.getD (4 * i + 3) 0) = word d i := fun i => pack_eq _ _ _ _
    induction k with
    | zero =>
      rw [List.range_succ, List.foldl_append, List.foldl_append, List.foldl_cons, List.foldl_nil, List.foldl_cons, List.foldl_nil, hw]
      exact sirand_at rfl rfl _
    | succ k ih =>
      rw [List.range_succ, List.foldl_append, List.foldl_append, List.foldl_cons, List.foldl_nil, List.foldl_cons, List.foldl_nil, hw]
      exact sirand_at (by rw [ih.ira]; exact ih.len) ih.ira _
  exact key 7

end Verif.Rand
