import Verif.Sha3.Lemmas
/- The absorbing phase of `Verif/Sha3/Model.lean`. -/
namespace Verif.Sha3
open Spec (bitsLSB)
open Spec.Sha3 (State ofBits keccakF)
attribute [local irreducible] Spec.Sha3.keccakF transform

theorem bitsLSB_length (l : List Byte) : (bitsLSB l).length = 8 * l.length := by
  induction l with
  | nil => rfl
  | cons a t ih =>
    have : bitsLSB (a :: t) = (List.range 8).map a.getLsbD ++ bitsLSB t := rfl
    rw [this, List.length_append, ih]; simp; omega

theorem bitsLSB_append (a b : List Byte) : bitsLSB (a ++ b) = bitsLSB a ++ bitsLSB b := by
  simp [bitsLSB]

theorem bitsLSB_zero (k : Nat) : bitsLSB (List.replicate k 0) = List.replicate (8 * k) false := by
  induction k with
  | zero => rfl
  | succ k ih =>
    have : bitsLSB (List.replicate (k + 1) 0) = List.replicate 8 false ++ bitsLSB (List.replicate k 0) := rfl
    rw [this, ih, List.replicate_append_replicate]; congr 1; omega

/-- absorbing the first `k` blocks with permutation `F` -/
def absorbG (F : State → State) (r : Nat) (P : List Bool) (k : Nat) : State :=
  (List.range k).foldl (fun A i => F fun x y z => A x y z ^^ ofBits ((P.drop (i * r)).take r) x y z) (fun _ _ _ => false)

theorem absorbG_succ (F : State → State) (r : Nat) (P : List Bool) (k : Nat) :
    absorbG F r P (k + 1) = F fun x y z => absorbG F r P k x y z ^^ ofBits ((P.drop (k * r)).take r) x y z := by
  unfold absorbG; rw [List.range_succ, List.foldl_append]; rfl

theorem absorbG_append (F : State → State) (r : Nat) (P Q : List Bool) (k : Nat) (h : k * r ≤ P.length) : absorbG F r (P ++ Q) k = absorbG F r P k := by
  induction k with
  | zero => rfl
  | succ k ih =>
    rw [Nat.succ_mul] at h
    rw [absorbG_succ, absorbG_succ, ih (by omega)]
    have : ((P ++ Q).drop (k * r)).take r = (P.drop (k * r)).take r := by
      rw [List.drop_append_of_le_length (by omega), List.take_append_of_le_length (by rw [List.length_drop]; omega)]
    rw [this]

/-- absorbing the first `k` blocks -/
def absorbK (r : Nat) (P : List Bool) (k : Nat) : State := absorbG keccakF r P k

theorem absorbK_succ (r : Nat) (P : List Bool) (k : Nat) :
    absorbK r P (k + 1) = keccakF fun x y z => absorbK r P k x y z ^^ ofBits ((P.drop (k * r)).take r) x y z := absorbG_succ _ r P k

theorem absorbK_append (r : Nat) (P Q : List Bool) (k : Nat) (h : k * r ≤ P.length) : absorbK r (P ++ Q) k = absorbK r P k :=
  absorbG_append _ r P Q k h

theorem ofBits_nil : ofBits [] = fun _ _ _ => false := by
  funext x y z; simp [ofBits]

theorem getD_bits1 (b : Byte) (i : Nat) (h : i < 8) : (bitsLSB [b]).getD i false = b.getLsbD i := by
  have : bitsLSB [b] = (List.range 8).map b.getLsbD := by simp [bitsLSB]
  rw [this, List.getD_eq_getElem?_getD, List.getElem?_map, List.getElem?_range h]; rfl

theorem ofBits_append (L : List Bool) (b : Byte) (cnt : Nat) (hL : L.length = 8 * cnt) (x y : Fin 5) (z : Fin 64) :
    ofBits (L ++ bitsLSB [b]) x y z = (ofBits L x y z ^^
      (if 8 * cnt ≤ 64 * (5 * y.val + x.val) + z.val ∧ 64 * (5 * y.val + x.val) + z.val < 8 * cnt + 8
       then b.getLsbD (64 * (5 * y.val + x.val) + z.val - 8 * cnt) else false)) := by
  unfold ofBits
  generalize 64 * (5 * y.val + x.val) + z.val = idx
  have l8 : (bitsLSB [b]).length = 8 := bitsLSB_length [b]
  by_cases h1 : idx < 8 * cnt
  · rw [if_neg (by omega), List.getD_eq_getElem?_getD, List.getElem?_append_left (by omega), Bool.xor_false, List.getD_eq_getElem?_getD]
  · have e1 : L.getD idx false = false := by
      rw [List.getD_eq_getElem?_getD, List.getElem?_eq_none (by omega)]; rfl
    rw [e1, Bool.false_xor, List.getD_eq_getElem?_getD, List.getElem?_append_right (by omega), hL, ← List.getD_eq_getElem?_getD]
    by_cases h2 : idx < 8 * cnt + 8
    · rw [if_pos (by omega), getD_bits1 b _ (by omega)]
    · rw [if_neg (by omega), List.getD_eq_getElem?_getD, List.getElem?_eq_none (by omega)]; rfl

theorem put_bits (s : Lanes) (b : Byte) (cnt : Nat) (x y : Fin 5) (z : Fin 64) :
    bits (fun x y => if x.val = cnt / 8 % 5 ∧ y.val = cnt / 8 / 5 then s x y ^^^ (b.setWidth 64 <<< (8 * (cnt % 8))) else s x y) x y z
      = (bits s x y z ^^ (if 8 * cnt ≤ 64 * (5 * y.val + x.val) + z.val ∧ 64 * (5 * y.val + x.val) + z.val < 8 * cnt + 8
       then b.getLsbD (64 * (5 * y.val + x.val) + z.val - 8 * cnt) else false)) := by
  unfold bits
  dsimp only
  have hx := x.isLt
  have hz := z.isLt
  by_cases h : x.val = cnt / 8 % 5 ∧ y.val = cnt / 8 / 5
  · rw [if_pos h, BitVec.getLsbD_xor, BitVec.getLsbD_shiftLeft, BitVec.getLsbD_setWidth]
    congr 1
    by_cases h1 : z.val < 8 * (cnt % 8)
    · rw [if_neg (by omega)]; simp [h1]
    · by_cases h2 : z.val < 8 * (cnt % 8) + 8
      · rw [if_pos (by omega)]
        have e : 64 * (5 * y.val + x.val) + z.val - 8 * cnt = z.val - 8 * (cnt % 8) := by omega
        rw [e]
        simp [h1, hz]
        omega
      · rw [if_neg (by omega), BitVec.getLsbD_of_ge b _ (by omega)]; simp
  · rw [if_neg h, if_neg (by omega), Bool.xor_false]

/-- the object has absorbed exactly the bytes `m` -/
structure Inv (rate : Nat) (m : List Byte) (h : SHA3) : Prop where
  rate_eq : h.rate = rate
  length_eq : h.length = BitVec.ofNat 64 m.length
  s_eq : bits h.s = fun x y z => absorbK (8 * rate) (bitsLSB m) (m.length / rate) x y z ^^ ofBits ((bitsLSB m).drop (m.length / rate * (8 * rate))) x y z

theorem new_inv (olen : Nat) : Inv (200 - 2 * olen) [] (new olen) := by
  refine ⟨rfl, rfl, ?_⟩
  funext x y z
  have : (bitsLSB []).drop (([] : List Byte).length / (200 - 2 * olen) * (8 * (200 - 2 * olen))) = [] := by simp [bitsLSB]
  rw [this, ofBits_nil]
  simp [bits, new, absorbK, absorbG]

theorem process_inv {rate : Nat} {m : List Byte} {h : SHA3} (H : Inv rate m h) (hr : 0 < rate) (hm : m.length < 2 ^ 64) (b : Byte) :
    Inv rate (m ++ [b]) (process h b) := by
  obtain ⟨h1, h2, h3⟩ := H
  have hl : h.length.toNat = m.length := by rw [h2, BitVec.toNat_ofNat, Nat.mod_eq_of_lt hm]
  have hlen1 : h.length + 1 = BitVec.ofNat 64 (m ++ [b]).length := by
    rw [h2]; apply BitVec.eq_of_toNat_eq; simp
  unfold process
  dsimp only
  rw [hl, h1]
  have hq := Nat.div_add_mod m.length rate
  have hlt := Nat.mod_lt m.length hr
  have hb := bitsLSB_length m
  have hl2 : (m ++ [b]).length = m.length + 1 := by simp
  generalize hc : m.length % rate = cnt at *
  generalize hk : m.length / rate = k at *
  have ek : k * (8 * rate) = 8 * (rate * k) := by rw [Nat.mul_left_comm, Nat.mul_comm k rate]
  have ltail : ((bitsLSB m).drop (k * (8 * rate))).length = 8 * cnt := by rw [List.length_drop, hb, ek]; omega
  have hs : ∀ x y z, bits (fun x y => if x.val = cnt / 8 % 5 ∧ y.val = cnt / 8 / 5 then h.s x y ^^^ (b.setWidth 64 <<< (8 * (cnt % 8))) else h.s x y) x y z
      = (absorbK (8 * rate) (bitsLSB m) k x y z ^^ ofBits ((bitsLSB m).drop (k * (8 * rate)) ++ bitsLSB [b]) x y z) := by
    intro x y z
    rw [put_bits, h3, ofBits_append _ b cnt ltail, Bool.xor_assoc]
  have htail : (bitsLSB (m ++ [b])).drop (k * (8 * rate)) = (bitsLSB m).drop (k * (8 * rate)) ++ bitsLSB [b] := by
    rw [bitsLSB_append, List.drop_append_of_le_length (by rw [hb, ek]; omega)]
  have habs : absorbK (8 * rate) (bitsLSB (m ++ [b])) k = absorbK (8 * rate) (bitsLSB m) k := by
    rw [bitsLSB_append, absorbK_append _ _ _ _ (by rw [hb, ek]; omega)]
  by_cases hfull : cnt + 1 = rate
  · rw [if_pos hfull]
    refine ⟨rfl, hlen1, ?_⟩
    dsimp only
    have hk1 : (m ++ [b]).length / rate = k + 1 := by
      rw [hl2]
      have : m.length + 1 = rate * (k + 1) := by rw [Nat.mul_succ]; omega
      rw [this, Nat.mul_div_cancel_left _ hr]
    have e1 : (bitsLSB (m ++ [b])).drop ((k + 1) * (8 * rate)) = [] := by
      apply List.drop_of_length_le
      have : (k + 1) * (8 * rate) = k * (8 * rate) + 8 * rate := Nat.succ_mul k (8 * rate)
      rw [bitsLSB_length, hl2]; omega
    rw [hk1, e1, ofBits_nil, transform_bits, absorbK_succ, habs, htail]
    have e2 : ((bitsLSB m).drop (k * (8 * rate)) ++ bitsLSB [b]).take (8 * rate) = (bitsLSB m).drop (k * (8 * rate)) ++ bitsLSB [b] := by
      apply List.take_of_length_le
      rw [List.length_append, ltail, bitsLSB_length]; simp; omega
    rw [e2]
    funext x y z
    rw [Bool.xor_false]
    congr 1
    funext x y z
    exact hs x y z
  · rw [if_neg hfull]
    refine ⟨rfl, hlen1, ?_⟩
    dsimp only
    have hk1 : (m ++ [b]).length / rate = k := by
      rw [hl2]
      have : m.length + 1 = (cnt + 1) + rate * k := by omega
      rw [this, Nat.add_mul_div_left _ _ hr, Nat.div_eq_of_lt (by omega), Nat.zero_add]
    rw [hk1, habs, htail]
    funext x y z
    exact hs x y z

theorem process_len (h : SHA3) (b : Byte) : (process h b).len = h.len := by
  unfold process; dsimp only; split <;> rfl

/-- feeding a whole message -/
def feed (h : SHA3) (m : List Byte) : SHA3 := m.foldl process h

theorem feed_inv {rate : Nat} (hr : 0 < rate) (m1 : List Byte) : ∀ {m : List Byte} {h : SHA3}, Inv rate m h → m.length + m1.length < 2 ^ 64 →
    Inv rate (m ++ m1) (feed h m1) := by
  induction m1 with
  | nil => intro m h H _; simpa [feed] using H
  | cons b t ih =>
    intro m h H hl
    simp only [List.length_cons] at hl
    have := ih (process_inv H hr (by omega) b) (by simp; omega)
    simpa [feed] using this

theorem feed_len (m : List Byte) (h : SHA3) : (feed h m).len = h.len := by
  induction m generalizing h with
  | nil => rfl
  | cons b t ih => show (feed (process h b) t).len = _; rw [ih, process_len]

theorem padLoop_eq {rate : Nat} (hr : 0 < rate) (fuel : Nat) : ∀ {m : List Byte} {h : SHA3}, Inv rate m h → m.length + (rate - 1 - m.length % rate) < 2 ^ 64 →
    rate - 1 - m.length % rate ≤ fuel → padLoop fuel h = feed h (List.replicate (rate - 1 - m.length % rate) 0) := by
  induction fuel with
  | zero => intro m h H hl hf; rw [Nat.le_zero.1 hf]; rfl
  | succ f ih =>
    intro m h H hl hf
    have hlt := Nat.mod_lt m.length hr
    have e : h.length.toNat = m.length := by rw [H.length_eq, BitVec.toNat_ofNat, Nat.mod_eq_of_lt (by omega)]
    unfold padLoop
    rw [e, H.rate_eq]
    by_cases hc : m.length % rate = rate - 1
    · rw [if_neg (by omega), hc, Nat.sub_self]; rfl
    · rw [if_pos hc]
      have hm1 : (m ++ [(0 : Byte)]).length % rate = m.length % rate + 1 := by
        rw [List.length_append, List.length_singleton, ← Nat.mod_add_mod, Nat.mod_eq_of_lt (by omega)]
      rw [ih (process_inv H hr (by omega) 0) (by rw [hm1]; simp; omega) (by rw [hm1]; omega), hm1]
      have : rate - 1 - m.length % rate = (rate - 1 - (m.length % rate + 1)) + 1 := by omega
      rw [this, List.replicate_succ]
      rfl

theorem feed_append (h : SHA3) (a b : List Byte) : feed h (a ++ b) = feed (feed h a) b := by
  unfold feed; rw [List.foldl_append]

/-- bytes appended by `finish` -/
def padBytes (rate len : Nat) (one both : Byte) : List Byte :=
  if rate - len % rate = 1 then [both] else [one] ++ List.replicate (rate - 2 - len % rate) 0 ++ [0x80]

theorem finish_eq {rate : Nat} (hr : 1 < rate) {m : List Byte} {h : SHA3} (H : Inv rate m h) (hl : m.length + rate < 2 ^ 64) (one both : Byte) :
    finish h one both = feed h (padBytes rate m.length one both) := by
  have hlt := Nat.mod_lt m.length (by omega : 0 < rate)
  have e : h.length.toNat = m.length := by rw [H.length_eq, BitVec.toNat_ofNat, Nat.mod_eq_of_lt (by omega)]
  unfold finish padBytes
  dsimp only
  rw [e, H.rate_eq]
  by_cases hq : rate - m.length % rate = 1
  · rw [if_pos hq, if_pos hq]; rfl
  · rw [if_neg hq, if_neg hq]
    have hm1 : (m ++ [one]).length % rate = m.length % rate + 1 := by
      rw [List.length_append, List.length_singleton, ← Nat.mod_add_mod, Nat.mod_eq_of_lt (by omega)]
    rw [padLoop_eq (by omega) rate (process_inv H (by omega) (by omega) one) (by rw [hm1]; simp; omega) (by rw [hm1]; omega), hm1]
    have : rate - 1 - (m.length % rate + 1) = rate - 2 - m.length % rate := by omega
    rw [this, feed_append, feed_append]
    rfl

theorem padBytes_length {rate : Nat} (hr : 1 < rate) (len : Nat) (one both : Byte) :
    (padBytes rate len one both).length = rate - len % rate := by
  have hlt := Nat.mod_lt len (by omega : 0 < rate)
  unfold padBytes
  split
  · simp; omega
  · simp; omega

theorem absorb_eq {rate : Nat} {m : List Byte} {h : SHA3} (H : Inv rate m h) (hr : 0 < rate) (hd : m.length % rate = 0) :
    bits h.s = Spec.Sha3.absorb (8 * rate) (bitsLSB m) := by
  rw [H.s_eq]
  have hq := Nat.div_add_mod m.length rate
  have e1 : (bitsLSB m).drop (m.length / rate * (8 * rate)) = [] := by
    apply List.drop_of_length_le
    rw [bitsLSB_length, Nat.mul_left_comm, Nat.mul_comm _ rate]; omega
  have e2 : (bitsLSB m).length / (8 * rate) = m.length / rate := by
    rw [bitsLSB_length, Nat.mul_div_mul_left _ _ (by decide)]
  rw [e1, ofBits_nil]
  unfold Spec.Sha3.absorb
  rw [e2]
  funext x y z
  rw [Bool.xor_false]
  rfl

theorem pad_bits {rate : Nat} (hr : 1 < rate) (len : Nat) (suf : List Bool) (a : Nat) (one both : Byte) (ha : suf.length + a = 7) (ha1 : 1 < a)
    (h1 : bitsLSB [one] = suf ++ [true] ++ List.replicate a false)
    (h2 : bitsLSB [both] = suf ++ [true] ++ List.replicate (a - 1) false ++ [true]) :
    bitsLSB (padBytes rate len one both) = suf ++ Spec.Sha3.pad (8 * rate) (8 * len + suf.length) := by
  have hlt := Nat.mod_lt len (by omega : 0 < rate)
  have hq := Nat.div_add_mod len rate
  have e0 : 8 * len = 8 * (len % rate) + 8 * rate * (len / rate) := by rw [Nat.mul_assoc]; omega
  unfold Spec.Sha3.pad
  have hz : (8 * rate - (8 * len + suf.length + 2) % (8 * rate)) % (8 * rate) = 8 * (rate - len % rate) - suf.length - 2 := by
    have e1 : 8 * len + suf.length + 2 = (8 * (len % rate) + suf.length + 2) + 8 * rate * (len / rate) := by omega
    have e2 : (8 * (len % rate) + suf.length + 2) % (8 * rate) = 8 * (len % rate) + suf.length + 2 := Nat.mod_eq_of_lt (by omega)
    rw [e1, Nat.add_mul_mod_self_left, e2, Nat.mod_eq_of_lt (by omega)]
    omega
  rw [hz]
  unfold padBytes
  split
  · rename_i h
    rw [h, h2]
    have : 8 * 1 - suf.length - 2 = a - 1 := by omega
    rw [this]; simp
  · rename_i h
    rw [bitsLSB_append, bitsLSB_append, h1, bitsLSB_zero]
    have e80 : bitsLSB [(0x80 : Byte)] = List.replicate 7 false ++ [true] := by decide
    rw [e80]
    have e2 : 8 * (rate - len % rate) - suf.length - 2 = a + 8 * (rate - 2 - len % rate) + 7 := by omega
    rw [e2, ← List.replicate_append_replicate, ← List.replicate_append_replicate]
    simp

/-- the state after absorbing the whole padded message -/
theorem finish_absorb {rate : Nat} (hr : 1 < rate) {m : List Byte} {h : SHA3} (H : Inv rate m h) (hl : m.length + rate < 2 ^ 64)
    (suf : List Bool) (a : Nat) (one both : Byte) (ha : suf.length + a = 7) (ha1 : 1 < a)
    (h1 : bitsLSB [one] = suf ++ [true] ++ List.replicate a false)
    (h2 : bitsLSB [both] = suf ++ [true] ++ List.replicate (a - 1) false ++ [true]) :
    bits (finish h one both).s = Spec.Sha3.absorb (8 * rate) ((bitsLSB m ++ suf) ++ Spec.Sha3.pad (8 * rate) (bitsLSB m ++ suf).length) ∧
    (finish h one both).rate = rate ∧ (finish h one both).len = h.len := by
  have hlt := Nat.mod_lt m.length (by omega : 0 < rate)
  have hq := Nat.div_add_mod m.length rate
  rw [finish_eq hr H hl]
  have lp := padBytes_length hr m.length one both
  have HI := feed_inv (by omega) (padBytes rate m.length one both) H (by rw [lp]; omega)
  refine ⟨?_, HI.rate_eq, feed_len _ _⟩
  rw [absorb_eq HI (by omega), bitsLSB_append, pad_bits hr m.length suf a one both ha ha1 h1 h2, List.length_append, bitsLSB_length, List.append_assoc]
  rw [List.length_append, lp]
  have : m.length + (rate - m.length % rate) = rate * (m.length / rate + 1) := by rw [Nat.mul_succ]; omega
  rw [this, Nat.mul_mod_right]

end Verif.Sha3
