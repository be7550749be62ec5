import Verif.Sha3.Absorb
/- The squeezing phase of `Verif/Sha3/Model.lean`. -/
namespace Verif.Sha3
open Spec (bitsLSB)
open Spec.Sha3 (State ofBits keccakF)
attribute [local irreducible] Spec.Sha3.keccakF transform

theorem emit_fold (rate olen : Nat) (hr : 0 < rate) (bs : List Byte) : ∀ (out : List Byte), out.length < olen →
    bs.foldl (emit rate olen) (out, false) =
      (out ++ bs.take (min (rate - out.length % rate) (olen - out.length)),
       decide (min (rate - out.length % rate) (olen - out.length) ≤ bs.length)) := by
  have hdone : ∀ (l : List Byte) o, l.foldl (emit rate olen) (o, true) = (o, true) := by
    intro l; induction l with
    | nil => intro o; rfl
    | cons a t ih => intro o; rw [List.foldl_cons]; exact ih o
  induction bs with
  | nil =>
    intro out ho
    have hlt := Nat.mod_lt out.length hr
    have : ¬ min (rate - out.length % rate) (olen - out.length) ≤ 0 := by omega
    simp [this]
  | cons b t ih =>
    intro out ho
    have hlt := Nat.mod_lt out.length hr
    have hlen : (out ++ [b]).length = out.length + 1 := by simp
    rw [List.foldl_cons]
    have e : emit rate olen (out, false) b = (out ++ [b], decide ((out ++ [b]).length ≥ olen) || decide ((out ++ [b]).length % rate = 0)) := rfl
    rw [e, hlen]
    have hmod : (out.length + 1) % rate = if out.length % rate + 1 = rate then 0 else out.length % rate + 1 := by
      rw [← Nat.mod_add_mod]
      split
      · rename_i h; rw [h, Nat.mod_self]
      · rw [Nat.mod_eq_of_lt (by omega)]
    by_cases h1 : out.length + 1 ≥ olen ∨ (out.length + 1) % rate = 0
    · have hb : (decide (out.length + 1 ≥ olen) || decide ((out.length + 1) % rate = 0)) = true := by simpa using h1
      rw [hb, hdone]
      have hk : min (rate - out.length % rate) (olen - out.length) = 1 := by
        rcases h1 with h | h
        · omega
        · rw [hmod] at h
          split at h <;> omega
      rw [hk]; simp
    · have hb : (decide (out.length + 1 ≥ olen) || decide ((out.length + 1) % rate = 0)) = false := by simpa using h1
      rw [not_or] at h1
      rw [hb, ih _ (by rw [hlen]; omega), hlen, hmod]
      have hne : ¬ out.length % rate + 1 = rate := by
        intro h; rw [hmod, if_pos h] at h1; exact h1.2 rfl
      rw [if_neg hne]
      have hk : min (rate - out.length % rate) (olen - out.length) = min (rate - (out.length % rate + 1)) (olen - (out.length + 1)) + 1 := by omega
      rw [hk]
      simp

/-- all 200 bytes of the state in output order -/
def stateBytes (s : Lanes) : List Byte :=
  (List.finRange 5).flatMap fun j => (List.finRange 5).flatMap fun i => laneBytes 8 (s i j)

theorem laneBytes_length (n : Nat) (v : BitVec 64) : (laneBytes n v).length = n := by
  induction n generalizing v with
  | zero => rfl
  | succ n ih => simp [laneBytes, ih]

theorem laneBytes_bits (n : Nat) (v : BitVec 64) : bitsLSB (laneBytes n v) = (List.range (8 * n)).map v.getLsbD := by
  induction n generalizing v with
  | zero => rfl
  | succ n ih =>
    have e : bitsLSB (laneBytes (n + 1) v) = (List.range 8).map ((v &&& 0xff).setWidth 8).getLsbD ++ bitsLSB (laneBytes n (v >>> 8)) := rfl
    rw [e, ih, Nat.mul_succ, Nat.add_comm (8 * n) 8, List.range_add, List.map_append, List.map_map]
    congr 1
    · apply List.map_congr_left
      intro i hi
      have hi : i < 8 := by simpa using hi
      rw [BitVec.getLsbD_setWidth, BitVec.getLsbD_and]
      have : (0xff : BitVec 64).getLsbD i = true := by
        have : ∀ i : Fin 8, (0xff : BitVec 64).getLsbD i.val = true := by decide
        exact this ⟨i, hi⟩
      rw [this]; simp [hi]
    · apply List.map_congr_left
      intro i _
      simp [BitVec.getLsbD_ushiftRight]

theorem stateBytes_length (s : Lanes) : (stateBytes s).length = 200 := by
  unfold stateBytes
  simp [List.length_flatMap, laneBytes_length]

theorem bitsLSB_flatMap {α : Type} (l : List α) (f : α → List Byte) : bitsLSB (l.flatMap f) = l.flatMap fun a => bitsLSB (f a) := by
  unfold bitsLSB; rw [List.flatMap_assoc]

theorem stateBytes_bits (s : Lanes) : bitsLSB (stateBytes s) = Spec.Sha3.toBits (bits s) := by
  unfold stateBytes Spec.Sha3.toBits
  rw [bitsLSB_flatMap]
  congr 1
  funext y
  rw [bitsLSB_flatMap]
  congr 1
  funext x
  rw [laneBytes_bits]
  unfold bits
  have : List.range (8 * 8) = (List.finRange 64).map Fin.val := by decide
  rw [this, List.map_map]
  rfl

theorem bitsLSB_take (l : List Byte) (k : Nat) : bitsLSB (l.take k) = (bitsLSB l).take (8 * k) := by
  induction l generalizing k with
  | nil => simp [bitsLSB]
  | cons a t ih =>
    cases k with
    | zero => rfl
    | succ k =>
      have e : bitsLSB (a :: t) = (List.range 8).map a.getLsbD ++ bitsLSB t := rfl
      have e2 : bitsLSB ((a :: t).take (k + 1)) = (List.range 8).map a.getLsbD ++ bitsLSB (t.take k) := rfl
      have e3 : 8 * (k + 1) - 8 = 8 * k := by omega
      rw [e, e2, ih, List.take_append, List.length_map, List.length_range, e3,
        List.take_of_length_le (l := (List.range 8).map a.getLsbD) (by rw [List.length_map, List.length_range]; omega)]

theorem squeezeBlock_eq (s : Lanes) (rate olen : Nat) (hr : 0 < rate) (hr2 : rate ≤ 200) (out : List Byte) (ho : out.length < olen) (hd : out.length % rate = 0) :
    squeezeBlock s rate olen out = out ++ (stateBytes s).take (min rate (olen - out.length)) := by
  unfold squeezeBlock
  have e : ((List.finRange 5).foldl (fun st j => (List.finRange 5).foldl (fun st i => (laneBytes 8 (s i j)).foldl (emit rate olen) st) st) (out, false))
      = (stateBytes s).foldl (emit rate olen) (out, false) := by
    unfold stateBytes
    rw [List.foldl_flatMap]
    simp only [List.foldl_flatMap]
  rw [e, emit_fold rate olen hr _ out ho, hd, Nat.sub_zero]

theorem squeezeLoop_eq (rate olen : Nat) (hr : 0 < rate) (hr2 : rate ≤ 200) (fuel : Nat) : ∀ (s : Lanes) (out : List Byte) (N : Nat),
    out.length < olen → out.length % rate = 0 → olen - out.length ≤ N * rate → olen - out.length < fuel →
    (squeezeLoop rate olen fuel s out).1 = out ++ ((List.range N).flatMap fun t => (stateBytes (transform^[t] s)).take rate).take (olen - out.length) := by
  induction fuel with
  | zero => intro s out N _ _ _ h; omega
  | succ f ih =>
    intro s out N ho hd hN hf
    unfold squeezeLoop
    dsimp only
    rw [squeezeBlock_eq s rate olen hr hr2 out ho hd]
    have lS := stateBytes_length s
    obtain ⟨N, rfl⟩ : ∃ M, N = M + 1 := by
      cases N with
      | zero => simp at hN; omega
      | succ M => exact ⟨M, rfl⟩
    have eR : ((List.range (N + 1)).flatMap fun t => (stateBytes (transform^[t] s)).take rate)
        = (stateBytes s).take rate ++ (List.range N).flatMap fun t => (stateBytes (transform^[t] (transform s))).take rate := by
      rw [List.range_succ_eq_map, List.flatMap_cons, List.flatMap_map]
      rfl
    rw [eR]
    have ltake : ((stateBytes s).take rate).length = rate := by rw [List.length_take, lS]; omega
    have hl : (out ++ (stateBytes s).take (min rate (olen - out.length))).length = out.length + min rate (olen - out.length) := by
      rw [List.length_append, List.length_take, lS]; omega
    by_cases h1 : out.length + min rate (olen - out.length) ≥ olen
    · rw [hl, if_pos h1]
      dsimp only
      have : min rate (olen - out.length) = olen - out.length := by omega
      rw [this, List.take_append_of_le_length (by omega), List.take_take]
      congr 2
      omega
    · rw [hl, if_neg h1]
      have hm : min rate (olen - out.length) = rate := by omega
      rw [hm] at hl h1 ⊢
      rw [ih (transform s) _ N (by omega) (by rw [hl, Nat.add_mod_right, hd]) (by rw [hl]; rw [Nat.succ_mul] at hN; omega) (by rw [hl]; omega), hl]
      have e4 : olen - (out.length + rate) = olen - out.length - rate := by omega
      rw [List.append_assoc, List.take_append, ltake, List.take_of_length_le (l := (stateBytes s).take rate) (by rw [ltake]; omega), e4]

theorem iter_bits (t : Nat) : ∀ s : Lanes, bits (transform^[t] s) = keccakF^[t] (bits s) := by
  induction t with
  | zero => intro s; rfl
  | succ t ih => intro s; rw [Function.iterate_succ_apply, Function.iterate_succ_apply, ih, transform_bits]

theorem squeeze_eq (h : SHA3) (olen : Nat) (hr : 0 < h.rate) (hr2 : h.rate ≤ 200) (ho : 0 < olen) :
    bitsLSB (squeeze h olen).1 = Spec.Sha3.squeeze (8 * h.rate) (bits h.s) (8 * olen) ∧ (squeeze h olen).1.length = olen := by
  unfold squeeze Spec.Sha3.squeeze
  dsimp only
  generalize hR : h.rate = rate at *
  have hN : (8 * olen + 8 * rate - 1) / (8 * rate) = (olen + rate - 1) / rate := by
    have e : (8 * olen + 8 * rate - 1) / (8 * rate) = ((8 * olen + 8 * rate - 1) / 8) / rate := by rw [Nat.div_div_eq_div_mul]
    rw [e]; congr 1; omega
  have hc : olen ≤ (olen + rate - 1) / rate * rate := by
    have := Nat.div_add_mod (olen + rate - 1) rate
    have := Nat.mod_lt (olen + rate - 1) hr
    rw [Nat.mul_comm]; omega
  have hL := squeezeLoop_eq rate olen hr hr2 (olen + 1) h.s [] ((olen + rate - 1) / rate) (by simpa using ho) (by simp) (by simpa using hc) (by simp)
  rw [List.nil_append, List.length_nil, Nat.sub_zero] at hL
  rw [hN, hL]
  constructor
  · rw [bitsLSB_take, bitsLSB_flatMap]
    congr 2
    funext t
    rw [bitsLSB_take, stateBytes_bits, iter_bits]
  · rw [List.length_take, List.length_flatMap]
    have : ∀ t, ((stateBytes (transform^[t] h.s)).take rate).length = rate := fun t => by rw [List.length_take, stateBytes_length]; omega
    simp only [this]
    simp
    exact hc

end Verif.Sha3
