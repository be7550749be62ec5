import Verif.Aes.Block
/- What `AES::end` erases. -/
namespace Verif.Aes

/-- the calls between `init` and `end` -/
inductive Call
  | encrypt (buff : List Byte)
  | decrypt (buff : List Byte)
  | reset (m : Nat) (iv : Option (List Byte))

/-- the object after a sequence of calls -/
def after (a : AES) : List Call → AES
  | [] => a
  | .encrypt buff :: l => after (encrypt a buff).1 l
  | .decrypt buff :: l => after (decrypt a buff).1 l
  | .reset m iv :: l => after (reset a m iv) l

theorem encrypt_keys (a : AES) (buff : List Byte) : (encrypt a buff).1.fkey = a.fkey ∧ (encrypt a buff).1.rkey = a.rkey ∧ (encrypt a buff).1.nr = a.nr := by
  unfold encrypt
  simp only
  split_ifs <;> exact ⟨rfl, rfl, rfl⟩
theorem decrypt_keys (a : AES) (buff : List Byte) : (decrypt a buff).1.fkey = a.fkey ∧ (decrypt a buff).1.rkey = a.rkey ∧ (decrypt a buff).1.nr = a.nr := by
  unfold decrypt
  simp only
  split_ifs <;> exact ⟨rfl, rfl, rfl⟩
theorem after_keys (a : AES) (l : List Call) : (after a l).fkey = a.fkey ∧ (after a l).rkey = a.rkey ∧ (after a l).nr = a.nr := by
  induction l generalizing a with
  | nil => exact ⟨rfl, rfl, rfl⟩
  | cons c l ih =>
    cases c with
    | encrypt b => have := ih (encrypt a b).1; have e := encrypt_keys a b; rw [e.1, e.2.1, e.2.2] at this; exact this
    | decrypt b => have := ih (decrypt a b).1; have e := decrypt_keys a b; rw [e.1, e.2.1, e.2.2] at this; exact this
    | reset m iv => exact ih (reset a m iv)

theorem set_drop {α : Type} (l : List α) {i n : Nat} (v : α) (h : i < n) : (l.set i v).drop n = l.drop n := by
  apply List.ext_getElem?
  intro k
  rw [List.getElem?_drop, List.getElem?_drop, List.getElem?_set_ne (by omega)]

theorem schedStep_drop (nk n j : Nat) (fk : List (BitVec 32)) (i : Nat) : (schedStep nk n j fk i).drop n = fk.drop n := by
  unfold schedStep
  split
  · rfl
  · exact set_drop _ _ (by omega)
theorem foldl_drop (nk n j : Nat) (l : List Nat) (fk : List (BitVec 32)) : (l.foldl (schedStep nk n j) fk).drop n = fk.drop n := by
  induction l generalizing fk with
  | nil => rfl
  | cons i l ih => rw [List.foldl_cons, ih, schedStep_drop]
theorem schedBlock_drop (nk n j k : Nat) (fk : List (BitVec 32)) (hj : j < n) : (schedBlock nk n j k fk).drop n = fk.drop n := by
  unfold schedBlock
  simp only
  split
  · rw [foldl_drop, set_drop _ _ hj]
  · rw [foldl_drop]
    split
    · rw [set_drop _ _ (by omega), foldl_drop, set_drop _ _ hj]
    · rw [foldl_drop, set_drop _ _ hj]
theorem schedLoop_drop (nk n fuel j k : Nat) (fk : List (BitVec 32)) : (schedLoop nk n fuel j k fk).drop n = fk.drop n := by
  induction fuel generalizing j k fk with
  | zero => rfl
  | succ f ih =>
    simp only [schedLoop]
    split
    · rw [ih, schedBlock_drop _ _ _ _ _ (by assumption)]
    · rfl
theorem load_drop (key : List Byte) (n nk : Nat) (h : nk ≤ n) (fk : List (BitVec 32)) :
    ((List.range nk).foldl (fun fk i => fk.set i (pack [bt key (4 * i), bt key (4 * i + 1), bt key (4 * i + 2), bt key (4 * i + 3)])) fk).drop n = fk.drop n := by
  induction nk with
  | zero => rfl
  | succ k ih => rw [List.range_succ, List.foldl_append, List.foldl_cons, List.foldl_nil, set_drop _ _ (by omega), ih (by omega)]

/-- `init` writes only the words of the new key schedule. -/
theorem init_drop (a : AES) (m nkey : Nat) (key : List Byte) (iv : Option (List Byte)) (hnk : nkey / 4 = 4 ∨ nkey / 4 = 6 ∨ nkey / 4 = 8) (hr : a.rkey.length = 60) :
    (init a m nkey key iv).2.fkey.drop (4 * (nkey / 4 + 7)) = a.fkey.drop (4 * (nkey / 4 + 7)) ∧
    (init a m nkey key iv).2.rkey.drop (4 * (nkey / 4 + 7)) = a.rkey.drop (4 * (nkey / 4 + 7)) ∧ (init a m nkey key iv).2.nr = nkey / 4 + 6 ∧
    (init a m nkey key iv).2.rkey.length = 60 := by
  have e : 4 * (6 + nkey / 4 + 1) = 4 * (nkey / 4 + 7) := by omega
  unfold init
  rw [if_neg (by omega)]
  simp only [reset]
  rw [e]
  refine ⟨?_, ?_, by omega, by simp [invKey]⟩
  · rw [schedLoop_drop, load_drop _ _ _ (by omega)]
  · apply List.ext_getElem
    · simp [invKey, hr]
    · intro i h1 h2
      rw [List.getElem_drop, List.getElem_drop]
      simp only [invKey, List.getElem_map, List.getElem_range]
      rw [if_neg (by omega)]
      unfold wd
      rw [List.getD_eq_getElem?_getD, List.getElem?_eq_getElem (by simp at h2; omega)]
      rfl
end Verif.Aes
