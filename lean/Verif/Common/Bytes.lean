import Verif.Spec.Sha2
/- Helper lemmas about big-endian bytes, `pieces`, folds. -/
namespace Spec

theorem pieces_eq_map {α : Type} (n k : Nat) (l : List α) :
    pieces n k l = (List.range k).map fun i => (l.drop (n * i)).take n := by
  induction k generalizing l with
  | zero => rfl
  | succ k ih =>
    rw [pieces, ih, List.range_succ_eq_map]
    simp only [List.map_cons, List.map_map, Nat.mul_zero, List.drop_zero]
    congr 1
    apply List.map_congr_left
    intro i _
    simp only [Function.comp_apply, List.drop_drop]
    congr 2
    rw [Nat.mul_succ, Nat.add_comm]

@[simp] theorem pieces_length {α : Type} (n k : Nat) (l : List α) : (pieces n k l).length = k := by
  simp [pieces_eq_map]

theorem pieces_succ {α : Type} (n k : Nat) (l : List α) :
    pieces n (k + 1) l = pieces n k l ++ [(l.drop (n * k)).take n] := by
  simp [pieces_eq_map, List.range_succ]

theorem pieces_append {α : Type} (n k : Nat) (l r : List α) (h : n * k ≤ l.length) :
    pieces n k (l ++ r) = pieces n k l := by
  simp only [pieces_eq_map]
  apply List.map_congr_left
  intro i hi
  have hi : i < k := by simpa using hi
  have h1 : n * i + n ≤ n * k := by
    have := Nat.mul_le_mul_left n (Nat.succ_le_of_lt hi)
    rw [Nat.mul_succ] at this; exact this
  rw [List.drop_append_of_le_length (by omega), List.take_append_of_le_length (by simp; omega)]

theorem pieces_flatten {α : Type} (n k : Nat) (l : List α) (h : l.length = n * k) :
    (pieces n k l).flatten = l := by
  induction k generalizing l with
  | zero => simp only [pieces, List.flatten_nil]; simp at h; exact h.symm
  | succ k ih =>
    rw [pieces, List.flatten_cons, ih _ (by simp [h, Nat.mul_succ])]
    simp

theorem beNat_append_singleton (bs : List Byte) (b : Byte) :
    beNat (bs ++ [b]) = 256 * beNat bs + b.toNat := by
  simp [beNat]

@[simp] theorem beNat_nil : beNat [] = 0 := rfl

theorem beNat_foldl (bs : List Byte) (a : Nat) :
    bs.foldl (fun acc b => 256 * acc + b.toNat) a = a * 256 ^ bs.length + beNat bs := by
  induction bs generalizing a with
  | nil => simp
  | cons b bs ih =>
    simp only [List.foldl_cons, beNat, List.length_cons]
    rw [ih, ih, Nat.mul_zero, Nat.zero_add, Nat.pow_succ]
    rw [Nat.add_mul, Nat.mul_comm (256 ^ bs.length) 256, ← Nat.mul_assoc a, Nat.mul_comm a 256]
    omega

theorem beNat_cons (b : Byte) (bs : List Byte) :
    beNat (b :: bs) = b.toNat * 256 ^ bs.length + beNat bs := by
  show (b :: bs).foldl (fun acc b => 256 * acc + b.toNat) 0 = _
  rw [List.foldl_cons, beNat_foldl]; simp

theorem beNat_append (xs ys : List Byte) :
    beNat (xs ++ ys) = beNat xs * 256 ^ ys.length + beNat ys := by
  show (xs ++ ys).foldl (fun acc b => 256 * acc + b.toNat) 0 = _
  rw [List.foldl_append, beNat_foldl]; rfl

theorem beNat_lt (bs : List Byte) : beNat bs < 256 ^ bs.length := by
  induction bs with
  | nil => simp
  | cons b bs ih =>
    rw [beNat_cons, List.length_cons, Nat.pow_succ]
    have h1 : b.toNat < 256 := b.isLt
    have : b.toNat * 256 ^ bs.length ≤ 255 * 256 ^ bs.length := Nat.mul_le_mul_right _ (by omega)
    omega

@[simp] theorem beBytes_length (n x : Nat) : (beBytes n x).length = n := by
  induction n generalizing x with
  | zero => rfl
  | succ n ih => simp [beBytes, ih]

theorem beNat_beBytes (n x : Nat) : beNat (beBytes n x) = x % 256 ^ n := by
  induction n generalizing x with
  | zero => simp [beBytes, Nat.mod_one]
  | succ n ih =>
    have h : x % 256 ^ (n + 1) = x % 256 + 256 * (x / 256 % 256 ^ n) := by
      rw [Nat.pow_succ, Nat.mul_comm (256 ^ n) 256, Nat.mod_mul]
    rw [beBytes, beNat_append_singleton, ih, BitVec.toNat_ofNat, h]
    omega

theorem beBytes_beNat (bs : List Byte) : beBytes bs.length (beNat bs) = bs := by
  suffices h : ∀ n (bs : List Byte), bs.length = n → beBytes n (beNat bs) = bs from h _ _ rfl
  intro n
  induction n with
  | zero => intro bs h; simp at h; subst h; rfl
  | succ n ih =>
    intro bs h
    have hne : bs ≠ [] := by intro h'; subst h'; simp at h
    obtain ⟨xs, b, rfl⟩ : ∃ xs b, bs = xs ++ [b] :=
      ⟨bs.dropLast, bs.getLast hne, (List.dropLast_concat_getLast hne).symm⟩
    have hl : xs.length = n := by simpa using h
    have hb : b.toNat < 256 := b.isLt
    rw [beBytes, beNat_append_singleton]
    have h1 : (256 * beNat xs + b.toNat) / 256 = beNat xs := by omega
    have h2 : BitVec.ofNat 8 (256 * beNat xs + b.toNat) = b := by
      apply BitVec.eq_of_toNat_eq; rw [BitVec.toNat_ofNat]; omega
    rw [h1, h2, ih xs hl]

theorem beNat_inj {xs ys : List Byte} (hl : xs.length = ys.length) (h : beNat xs = beNat ys) :
    xs = ys := by
  rw [← beBytes_beNat xs, ← beBytes_beNat ys, hl, h]

theorem beBytes_add (m n x : Nat) : beBytes (m + n) x = beBytes m (x / 256 ^ n) ++ beBytes n x := by
  induction n generalizing x with
  | zero => simp [beBytes]
  | succ n ih =>
    rw [← Nat.add_assoc, beBytes, ih, beBytes, Nat.pow_succ, Nat.mul_comm (256 ^ n) 256,
      Nat.div_div_eq_div_mul, List.append_assoc]

theorem beBytes_mod (n x : Nat) : beBytes n (x % 256 ^ n) = beBytes n x := by
  apply beNat_inj (by simp)
  rw [beNat_beBytes, beNat_beBytes, Nat.mod_mod]

theorem beBytes_getD (n x i : Nat) (h : i < n) :
    (beBytes n x).getD i 0 = BitVec.ofNat 8 (x / 256 ^ (n - 1 - i)) := by
  induction n generalizing x with
  | zero => omega
  | succ n ih =>
    rw [beBytes, List.getD_eq_getElem?_getD]
    by_cases hi : i < n
    · rw [List.getElem?_append_left (by simpa using hi), ← List.getD_eq_getElem?_getD, ih _ hi,
        Nat.div_div_eq_div_mul, Nat.mul_comm, ← Nat.pow_succ]
      congr 3; omega
    · have : i = n := by omega
      subst this
      rw [List.getElem?_append_right (by simp)]
      simp

theorem flatMap_getElem? {α β : Type} (l : List α) (f : α → List β) (n : Nat) (hn : 0 < n)
    (hf : ∀ a, (f a).length = n) (i : Nat) :
    (l.flatMap f)[i]? = (l[i / n]?).bind fun a => (f a)[i % n]? := by
  induction l generalizing i with
  | nil => simp
  | cons a l ih =>
    rw [List.flatMap_cons]
    by_cases h : i < n
    · rw [List.getElem?_append_left (by rw [hf]; exact h), Nat.div_eq_of_lt h, Nat.mod_eq_of_lt h]
      simp
    · rw [List.getElem?_append_right (by rw [hf]; omega), hf, ih]
      have h1 : i / n = (i - n) / n + 1 := by
        rw [Nat.div_eq_sub_div hn (by omega)]
      have h2 : i % n = (i - n) % n := by rw [← Nat.mod_eq_sub_mod (by omega)]
      rw [h1, h2, List.getElem?_cons_succ]

end Spec
