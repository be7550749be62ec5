import Verif.Nhs.Arith
import Mathlib.Tactic.IntervalCases
import Mathlib.Data.List.GetD
/- Helper lemmas: packing, compression, key encoding of `nhs.rs`. -/
namespace Verif.Nhs
open Spec.Nhs (q)

theorem flatMap_len {α : Type} (f : Nat → List α) (L : Nat) (hf : ∀ i, (f i).length = L) (n : Nat) :
    ((List.range n).flatMap f).length = L * n := by
  induction n with
  | zero => simp
  | succ n ih => rw [List.range_succ, List.flatMap_append, List.length_append, ih]; simp [hf]; ring

theorem flatMap_getD {α : Type} (f : Nat → List α) (L : Nat) (hf : ∀ i, (f i).length = L) (d : α) (n i j : Nat) (hi : i < n) (hj : j < L) :
    ((List.range n).flatMap f).getD (L * i + j) d = (f i).getD j d := by
  induction n with
  | zero => omega
  | succ n ih =>
    rw [List.range_succ, List.flatMap_append]
    have hl := flatMap_len f L hf n
    by_cases h : i < n
    · rw [List.getD_append _ _ _ _ (by rw [hl]; calc L * i + j < L * i + L := by omega
            _ = L * (i + 1) := by ring
            _ ≤ L * n := Nat.mul_le_mul_left _ h)]
      exact ih h
    · have : i = n := by omega
      subst this
      rw [List.getD_append_right _ _ _ _ (by rw [hl]; omega), hl, Nat.add_sub_cancel_left]
      simp

theorem pack4_len (a b c d : I32) : (pack4 a b c d).length = 7 := rfl

theorem pack_len (p : Poly) : (pack p).length = 1792 := by
  unfold pack; rw [flatMap_len _ 7 (fun _ => rfl)]

theorem compress_len (p : Poly) : (compress p).length = 384 := by
  unfold compress; rw [flatMap_len _ 3 (fun _ => rfl)]

theorem pack_getD (p : Poly) (i j : Nat) (hi : i < 256) (hj : j < 7) :
    (pack p).getD (7 * i + j) 0 = (pack4 (p (4 * i)) (p (4 * i + 1)) (p (4 * i + 2)) (p (4 * i + 3))).getD j 0 := by
  unfold pack; rw [flatMap_getD _ 7 (fun _ => rfl) 0 256 i j hi hj]

/-- a word below 2^14 -/
theorem bits14 (a : I32) (h : a.toNat < 2 ^ 14) (i : Nat) (hi : 14 ≤ i) : a.getLsbD i = false := by
  rw [← BitVec.testBit_toNat]
  exact Nat.testBit_lt_two_pow (lt_of_lt_of_le h (Nat.pow_le_pow_right (by decide) hi))

theorem elem14 (a : I32) (h : a.toNat < 2 ^ 14) (i : Nat) (hi2 : i < 32) (hi : 14 ≤ i) : a[i] = false := by
  rw [← BitVec.getLsbD_eq_getElem]; exact bits14 a h i hi

theorem ssr8 (x : Byte) (n : Nat) : (x.setWidth 32 : I32).sshiftRight n = (x.setWidth 32 : I32) >>> n := by
  apply BitVec.sshiftRight_eq_of_msb_false
  rw [BitVec.msb_eq_decide, BitVec.toNat_setWidth]
  have := x.isLt
  simp; omega

theorem unpack4_pack4 (l : List Byte) (j : Nat) (a b c d : I32) (ha : a.toNat < 2 ^ 14) (hb : b.toNat < 2 ^ 14)
    (hc : c.toNat < 2 ^ 14) (hd : d.toNat < 2 ^ 14) (hl : ∀ i < 7, l.getD (j + i) 0 = (pack4 a b c d).getD i 0) :
    unpack4 l j = (a, b, c, d) := by
  have l0 := hl 0 (by decide)
  have l1 := hl 1 (by decide)
  have l2 := hl 2 (by decide)
  have l3 := hl 3 (by decide)
  have l4 := hl 4 (by decide)
  have l5 := hl 5 (by decide)
  have l6 := hl 6 (by decide)
  have ba := bits14 a ha
  have bb := bits14 b hb
  have bc := bits14 c hc
  have bd := bits14 d hd
  have ea := elem14 a ha
  have eb := elem14 b hb
  have ec := elem14 c hc
  have ed := elem14 d hd
  simp only [pack4, List.getD_cons_zero, List.getD_cons_succ, Nat.add_zero] at l0 l1 l2 l3 l4 l5 l6
  unfold unpack4
  rw [l0, l1, l2, l3, l4, l5, l6]
  simp only [Prod.mk.injEq, ssr8]
  refine ⟨?_, ?_, ?_, ?_⟩ <;>
  · apply BitVec.eq_of_getLsbD_eq
    intro i hi
    interval_cases i <;> simp [BitVec.getLsbD_sshiftRight, BitVec.getElem_sshiftRight, ba, bb, bc, bd, ea, eb, ec, ed]

theorem unpack_pack (x : Poly) (hx : ∀ p < 1024, (x p).toNat < 2 ^ 14) (l : List Byte) (hl : l = pack x) (p : Nat) (hp : p < 1024) :
    unpack l p = x p := by
  subst hl
  have h := unpack4_pack4 (pack x) (7 * (p / 4)) _ _ _ _ (hx (4 * (p / 4)) (by omega)) (hx (4 * (p / 4) + 1) (by omega))
    (hx (4 * (p / 4) + 2) (by omega)) (hx (4 * (p / 4) + 3) (by omega)) (fun i hi => pack_getD x (p / 4) i (by omega) hi)
  unfold unpack
  simp only [h]
  have e : p % 4 = 0 ∨ p % 4 = 1 ∨ p % 4 = 2 ∨ p % 4 = 3 := by omega
  rcases e with e | e | e | e
  · rw [if_pos e]; congr 1; omega
  · rw [if_neg (by omega), if_pos e]; congr 1; omega
  · rw [if_neg (by omega), if_neg (by omega), if_pos e]; congr 1; omega
  · rw [if_neg (by omega), if_neg (by omega), if_neg (by omega)]; congr 1; omega

theorem pack4_unpack4 (l : List Byte) (j i : Nat) (hi : i < 7) :
    (pack4 (unpack4 l j).1 (unpack4 l j).2.1 (unpack4 l j).2.2.1 (unpack4 l j).2.2.2).getD i 0 = l.getD (j + i) 0 := by
  unfold unpack4
  generalize e0 : l.getD j 0 = b0
  generalize e1 : l.getD (j + 1) 0 = b1
  generalize e2 : l.getD (j + 2) 0 = b2
  generalize e3 : l.getD (j + 3) 0 = b3
  generalize e4 : l.getD (j + 4) 0 = b4
  generalize e5 : l.getD (j + 5) 0 = b5
  generalize e6 : l.getD (j + 6) 0 = b6
  interval_cases i <;>
  · simp only [pack4, List.getD_cons_zero, List.getD_cons_succ, Nat.add_zero, e0, e1, e2, e3, e4, e5, e6]
    apply BitVec.eq_of_getLsbD_eq
    intro k hk
    interval_cases k <;> simp [BitVec.getLsbD_sshiftRight, BitVec.getElem_sshiftRight]

theorem unpack_at (l : List Byte) (i : Nat) : unpack l (4 * i) = (unpack4 l (7 * i)).1 ∧ unpack l (4 * i + 1) = (unpack4 l (7 * i)).2.1 ∧
    unpack l (4 * i + 2) = (unpack4 l (7 * i)).2.2.1 ∧ unpack l (4 * i + 3) = (unpack4 l (7 * i)).2.2.2 := by
  unfold unpack
  refine ⟨?_, ?_, ?_, ?_⟩
  · simp only [show 4 * i / 4 = i by omega]; rw [if_pos (by omega)]
  · simp only [show (4 * i + 1) / 4 = i by omega]; rw [if_neg (by omega), if_pos (by omega)]
  · simp only [show (4 * i + 2) / 4 = i by omega]; rw [if_neg (by omega), if_neg (by omega), if_pos (by omega)]
  · simp only [show (4 * i + 3) / 4 = i by omega]; rw [if_neg (by omega), if_neg (by omega), if_neg (by omega)]

theorem list_ext_getD (a b : List Byte) (hl : a.length = b.length) (h : ∀ i < a.length, a.getD i 0 = b.getD i 0) : a = b := by
  apply List.ext_getElem hl
  intro i h1 h2
  have := h i h1
  rwa [List.getD_eq_getElem _ _ h1, List.getD_eq_getElem _ _ h2] at this

theorem pack_unpack (l : List Byte) (hl : l.length = 1792) : pack (unpack l) = l := by
  apply list_ext_getD _ _ (by rw [pack_len, hl])
  intro i hi
  rw [pack_len] at hi
  have h := pack_getD (unpack l) (i / 7) (i % 7) (by omega) (by omega)
  obtain ⟨u0, u1, u2, u3⟩ := unpack_at l (i / 7)
  rw [u0, u1, u2, u3, pack4_unpack4 _ _ _ (by omega), show 7 * (i / 7) + i % 7 = i by omega] at h
  exact h

theorem unpack_lt (l : List Byte) (p : Nat) : (unpack l p).toNat < 2 ^ 14 := by
  have key : ∀ x : I32, (∀ i (h : i < 32), 14 ≤ i → x[i] = false) → x.toNat < 2 ^ 14 := by
    intro x h
    apply Nat.lt_pow_two_of_testBit
    intro i hi
    rw [BitVec.testBit_toNat]
    by_cases h2 : i < 32
    · rw [BitVec.getLsbD_eq_getElem h2]; exact h i h2 hi
    · exact BitVec.getLsbD_of_ge _ _ (by omega)
  unfold unpack unpack4
  simp only [ssr8]
  split
  · apply key; intro i h h2; interval_cases i <;> simp
  · split
    · apply key; intro i h h2; interval_cases i <;> simp
    · split
      · apply key; intro i h h2; interval_cases i <;> simp
      · apply key; intro i h h2; interval_cases i <;> simp

end Verif.Nhs
