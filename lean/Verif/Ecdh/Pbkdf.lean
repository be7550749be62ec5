import Verif.Ecdh.Lemmas
/- Helper lemmas: `pbkdf2`. -/
namespace Verif.Ecdh
open Spec (Byte ShaLen beBytes)

theorem intToBytesRev_eq (k : Nat) : ∀ a b : Nat, a ≤ b → intToBytesRev b (beBytes k a).reverse = (beBytes k b).reverse := by
  induction k with
  | zero => intro a b _; rfl
  | succ k ih =>
    intro a b h
    simp only [beBytes, List.reverse_append, List.reverse_cons, List.reverse_nil, List.nil_append, List.cons_append, intToBytesRev]
    by_cases hb : b > 0
    · rw [if_pos hb, ih _ _ (Nat.div_le_div_right h)]
    · have : a = b := by omega
      rw [if_neg hb, this]

theorem inttobytes_eq (k a b : Nat) (h : a ≤ b) : inttobytes b (beBytes k a) = beBytes k b := by
  rw [inttobytes, intToBytesRev_eq k a b h, List.reverse_reverse]

theorem beBytes_zero (k : Nat) : beBytes k 0 = List.replicate k 0 := by
  induction k with
  | zero => rfl
  | succ k ih => rw [beBytes, Nat.zero_div, ih, List.replicate_succ']; rfl

/-- the iterates as the code computes them: after the first one the MAC input is padded with zeros to 64 bytes -/
def codeU (prf : List Byte → List Byte) (n : Nat) (s : List Byte) (i : Nat) : Nat → List Byte
  | 0 => prf (s ++ beBytes 4 i)
  | j + 1 => prf (codeU prf n s i j ++ List.replicate (64 - n) 0)

/-- their sum -/
def codeF (prf : List Byte → List Byte) (n : Nat) (s : List Byte) (i : Nat) : Nat → List Byte
  | 0 => codeU prf n s i 0
  | r + 1 => Spec.xorBytes (codeF prf n s i r) (codeU prf n s i (r + 1))

section
variable {n : Nat} (hn : ShaLen n) (pass : List Byte)
include hn

theorem codeU_length (s : List Byte) (i j : Nat) : (codeU (Spec.mac n pass) n s i j).length = n := by
  cases j <;> exact mac_length hn _ _

theorem codeF_length (s : List Byte) (i j : Nat) : (codeF (Spec.mac n pass) n s i j).length = n := by
  induction j with
  | zero => exact codeU_length hn pass s i 0
  | succ j ih => simp [codeF, Spec.xorBytes, ih, codeU_length hn]

theorem hmac_n (m : List Byte) (tag : List Byte) (ht : tag.length = 64) :
    hmac n m pass n tag = some (true, Spec.mac n pass m ++ tag.drop n) := by
  have := sha_ge hn
  have := sha_le hn
  rw [hmac_eq hn _ _ _ (by omega) _ (by omega), padTo, if_neg (by omega), if_pos le_rfl, List.take_of_length_le (by rw [mac_length hn])]

theorem iter_loop (s : List Byte) (i r : Nat) (ku : List Byte) (hku : ku.length = 64) :
    ∃ ku', ku'.length = 64 ∧
    (List.range r).foldlM (fun x _ => pbkdfIter n pass x)
        (codeU (Spec.mac n pass) n s i 0 ++ List.replicate (64 - n) 0, codeU (Spec.mac n pass) n s i 0 ++ List.replicate (64 - n) 0, ku)
      = some (codeF (Spec.mac n pass) n s i r ++ List.replicate (64 - n) 0, codeU (Spec.mac n pass) n s i r ++ List.replicate (64 - n) 0, ku') := by
  have h64 := sha_le hn
  induction r with
  | zero => exact ⟨ku, hku, rfl⟩
  | succ r ih =>
    obtain ⟨ku', hk', e⟩ := ih
    refine ⟨Spec.mac n pass (codeU (Spec.mac n pass) n s i r ++ List.replicate (64 - n) 0) ++ ku'.drop n, ?_, ?_⟩
    · simp [mac_length hn, hk']; omega
    · rw [List.range_succ, List.foldlM_append, e]
      have lU := codeU_length hn pass s i r
      have lF := codeF_length hn pass s i r
      have lU' := codeU_length hn pass s i (r + 1)
      simp only [Option.bind_eq_bind, Option.bind_some, List.foldlM_cons, List.foldlM_nil, pbkdfIter, hmac_n hn pass _ _ hk', Option.pure_def]
      have e1 : Spec.mac n pass (codeU (Spec.mac n pass) n s i r ++ List.replicate (64 - n) 0) = codeU (Spec.mac n pass) n s i (r + 1) := rfl
      rw [e1]
      have tk : ∀ a b : List Byte, a.length = n → (a ++ b).take n = a := fun a b h => by
        rw [List.take_append_of_le_length (by omega), List.take_of_length_le (by omega)]
      have dk : ∀ a b : List Byte, a.length = n → (a ++ b).drop n = b := fun a b h => by
        rw [List.drop_append_of_le_length (by omega), List.drop_of_length_le (by omega), List.nil_append]
      rw [tk _ _ lU', dk _ _ lU, dk _ _ lF, tk _ _ lF, tk _ _ lU']
      rfl

end

/-- the output so far: the first `L` bytes of the stream over the old contents -/
def over (L : Nat) (k S : List Byte) : List Byte := S.take L ++ k.drop (min L S.length)

theorem out_loop (f k S : List Byte) (olen kp m : Nat) (hf : f.length = 64) (hk : olen ≤ k.length)
    (hS : S.length = kp ∨ (64 ≤ S.length ∧ 64 ≤ kp)) :
    (List.range m).foldlM (pbkdfOut f olen) (over (min olen 64) k S, kp)
      = some (over (min olen 64) k (S ++ f.take m), kp + m) := by
  induction m with
  | zero => simp
  | succ m ih =>
    rw [List.range_succ, List.foldlM_append, ih]
    simp only [Option.bind_eq_bind, Option.bind_some, List.foldlM_cons, List.foldlM_nil, pbkdfOut, Option.pure_def, hf]
    by_cases h : kp + m < olen ∧ kp + m < 64
    · rw [if_pos h]
      have hSk : S.length = kp := by omega
      have hm : m < f.length := by omega
      rw [List.getElem?_eq_getElem hm, Option.bind_some]
      have hl : (S ++ f.take m).length = kp + m := by simp [hSk]; omega
      have e : over (min olen 64) k (S ++ f.take m) = (S ++ f.take m) ++ k.drop (kp + m) := by
        unfold over
        rw [List.take_of_length_le (by omega), hl, Nat.min_eq_right (by omega)]
      have hl' : (S ++ f.take (m + 1)).length = kp + m + 1 := by simp [hSk]; omega
      have e' : over (min olen 64) k (S ++ f.take (m + 1)) = (S ++ f.take (m + 1)) ++ k.drop (kp + m + 1) := by
        unfold over
        rw [List.take_of_length_le (by omega), hl', Nat.min_eq_right (by omega)]
      rw [e, e', write_eq _ _ _ (by simp [hSk]; omega), Option.bind_some]
      rw [List.take_append_of_le_length (by omega), List.take_of_length_le (by omega), List.length_singleton, List.drop_append, List.drop_of_length_le (by omega),
        List.nil_append, List.drop_drop, hl, List.take_add_one, List.getElem?_eq_getElem hm]
      have ex : kp + m + (kp + m + 1 - (kp + m)) = kp + m + 1 := by omega
      simp only [Option.toList_some, List.append_assoc, ex]
      rfl
    · rw [if_neg h, Option.bind_some]
      congr 2
      unfold over
      have hl : min olen 64 ≤ (S ++ f.take m).length := by simp; omega
      have hl' : min olen 64 ≤ (S ++ f.take (m + 1)).length := by simp; omega
      rw [Nat.min_eq_left hl, Nat.min_eq_left hl']
      congr 1
      have : S ++ f.take (m + 1) = (S ++ f.take m) ++ (f.drop m).take 1 := by
        rw [List.append_assoc, ← List.take_add]
      rw [this, List.take_append_of_le_length (l₁ := S ++ f.take m) hl]

/-- the stream of output blocks -/
def codeStream (efs n : Nat) (pass salt : List Byte) (rep d : Nat) : List Byte :=
  (List.range d).flatMap fun i => (codeF (Spec.mac n pass) n salt (i + 1) (rep - 1) ++ List.replicate (64 - n) 0).take efs

theorem pb_loop {n : Nat} (hn : ShaLen n) (efs : Nat) (pass salt : List Byte) (rep olen : Nat) (k : List Byte) (hs : salt.length ≤ 32)
    (hk : olen ≤ k.length) (d : Nat) :
    ∃ st : Pb, (List.range d).foldlM (pbkdfBlock efs n pass salt rep olen)
        { f := List.replicate 64 0, u := List.replicate 64 0, ku := List.replicate 64 0, s := List.replicate 36 0, n := List.replicate 4 0, k := k, kp := 0 } = some st ∧
      st.k = over (min olen 64) k (codeStream efs n pass salt rep d) ∧ st.kp = d * efs ∧
      ((codeStream efs n pass salt rep d).length = st.kp ∨ (64 ≤ (codeStream efs n pass salt rep d).length ∧ 64 ≤ st.kp)) ∧
      st.ku.length = 64 ∧ st.s.length = 36 ∧ st.n = beBytes 4 d ∧ st.f.length = 64 ∧ st.f.drop n = List.replicate (64 - n) 0 ∧
      st.u.length = 64 ∧ st.u.drop n = List.replicate (64 - n) 0 := by
  have h64 := sha_le hn
  induction d with
  | zero =>
    refine ⟨_, rfl, ?_, ?_, ?_, ?_, ?_, ?_, ?_, ?_, ?_, ?_⟩
    · simp [over, codeStream]
    · simp
    · left; simp [codeStream]
    · exact List.length_replicate
    · exact List.length_replicate
    · exact (beBytes_zero 4).symm
    · exact List.length_replicate
    · exact List.drop_replicate
    · exact List.length_replicate
    · exact List.drop_replicate
  | succ d ih =>
    obtain ⟨st, e, hk', hkp, hS, hku, hs36, hnb, hf, hfd, hu, hud⟩ := ih
    rw [List.range_succ, List.foldlM_append, e]
    simp only [Option.bind_eq_bind, Option.bind_some, List.foldlM_cons, List.foldlM_nil]
    -- the salt buffer
    have e1 : write st.s 0 salt = some (salt ++ st.s.drop salt.length) := by
      rw [write_eq _ _ _ (by omega)]; simp
    have e2 : inttobytes (d + 1) st.n = beBytes 4 (d + 1) := by rw [hnb]; exact inttobytes_eq 4 d (d + 1) (by omega)
    have e3 : write (salt ++ st.s.drop salt.length) salt.length (beBytes 4 (d + 1)) = some (salt ++ beBytes 4 (d + 1) ++ st.s.drop (salt.length + 4)) := by
      rw [write_eq _ _ _ (by simp; omega)]
      rw [List.take_append_of_le_length le_rfl, List.take_of_length_le le_rfl, List.drop_append, List.drop_of_length_le (by simp), List.nil_append, List.drop_drop]
      simp
    have e4 : (salt ++ beBytes 4 (d + 1) ++ st.s.drop (salt.length + 4)).take (salt.length + 4) = salt ++ beBytes 4 (d + 1) := by
      rw [List.take_append_of_le_length (by simp), List.take_of_length_le (by simp)]
    have hm0 : (Spec.mac n pass (salt ++ beBytes 4 (d + 1))).length = n := mac_length hn _ _
    have e5 : (Spec.mac n pass (salt ++ beBytes 4 (d + 1)) ++ List.replicate (64 - n) 0).take n = Spec.mac n pass (salt ++ beBytes 4 (d + 1)) := by
      rw [List.take_append_of_le_length (by omega), List.take_of_length_le (by omega)]
    obtain ⟨ku', hku', el⟩ := iter_loop hn pass salt (d + 1) (rep - 1) st.ku hku
    have lF := codeF_length hn pass salt (d + 1) (rep - 1)
    have lU := codeU_length hn pass salt (d + 1) (rep - 1)
    have eo := out_loop (codeF (Spec.mac n pass) n salt (d + 1) (rep - 1) ++ List.replicate (64 - n) 0) k _ olen st.kp efs
      (by simp [lF]; omega) hk hS
    have eblk : pbkdfBlock efs n pass salt rep olen st d
        = some ⟨codeF (Spec.mac n pass) n salt (d + 1) (rep - 1) ++ List.replicate (64 - n) 0,
            codeU (Spec.mac n pass) n salt (d + 1) (rep - 1) ++ List.replicate (64 - n) 0, ku',
            salt ++ beBytes 4 (d + 1) ++ st.s.drop (salt.length + 4), beBytes 4 (d + 1),
            over (min olen 64) k (codeStream efs n pass salt rep d ++ (codeF (Spec.mac n pass) n salt (d + 1) (rep - 1) ++ List.replicate (64 - n) 0).take efs),
            st.kp + efs⟩ := by
      unfold pbkdfBlock
      simp only [Option.bind_eq_bind, Option.bind_some, e1, e2, e3, e4, hmac_n hn pass _ _ hf, hfd, hud, e5]
      rw [show Spec.mac n pass (salt ++ beBytes 4 (d + 1)) = codeU (Spec.mac n pass) n salt (d + 1) 0 from rfl, el]
      simp only [Option.bind_some, hk', eo]
      rfl
    rw [eblk]
    have es : codeStream efs n pass salt rep (d + 1)
        = codeStream efs n pass salt rep d ++ (codeF (Spec.mac n pass) n salt (d + 1) (rep - 1) ++ List.replicate (64 - n) 0).take efs := by
      simp only [codeStream, List.range_succ, List.flatMap_append, List.flatMap_singleton]
    refine ⟨_, rfl, ?_, ?_, ?_, hku', ?_, rfl, ?_, ?_, ?_, ?_⟩
    · rw [es]
    · show st.kp + efs = _
      rw [hkp, Nat.add_mul, Nat.one_mul]
    · show _ = st.kp + efs ∨ _ ∧ 64 ≤ st.kp + efs
      rw [es]
      simp only [List.length_append, List.length_take, lF, List.length_replicate]
      omega
    · simp; omega
    · simp [lF]; omega
    · rw [List.drop_append_of_le_length (by omega), List.drop_of_length_le (by omega), List.nil_append]
    · simp [lU]; omega
    · rw [List.drop_append_of_le_length (by omega), List.drop_of_length_le (by omega), List.nil_append]

theorem pbkdf2_eq {n : Nat} (hn : ShaLen n) (efs : Nat) (pass salt : List Byte) (rep olen : Nat) (k : List Byte) (hs : salt.length ≤ 32)
    (hk : olen ≤ k.length) :
    pbkdf2 efs n pass salt rep olen k = some (over (min olen 64) k (codeStream efs n pass salt rep (Spec.ceilDiv olen n))) := by
  have h0 : 0 < n := by have := sha_ge hn; omega
  unfold pbkdf2
  obtain ⟨st, e, hk', _⟩ := pb_loop hn efs pass salt rep olen k hs hk (Spec.ceilDiv olen n)
  rw [threshold_eq h0]
  simp only [Option.bind_eq_bind, e, Option.bind_some, hk', Option.pure_def]

end Verif.Ecdh
