import Verif.Big.Modular
import Verif.Spec.Rand
/- Helper lemmas: `random`, `randomnum`. -/
namespace Verif.Big
open Spec (limbsVal Normal LimbsWithin draw bitsLSB bitsNat)

variable {C : Nat} {σ : Type}

/-- bits of the current byte still to be used when `j` of its bits are already consumed -/
def avail (j : Nat) (r : BitVec 8) : List Bool := (List.range ((8 - j) % 8)).map fun i => r.getLsbD (i + 1)

theorem bitval_toInt (x : BitVec 8) (hC : 9 ≤ C) : ((x.setWidth C) &&& 1).toInt = ((x.getLsbD 0).toNat : Int) := by
  have h := and_one_shl_toNat (x.setWidth C) 0 (by omega)
  have h1 : ((x.setWidth C) &&& 1).toNat = (x.getLsbD 0).toNat := by
    have e : (1#C <<< 0) = (1 : BitVec C) := by simp
    rw [e] at h
    rw [h]
    simp only [BitVec.getLsbD_setWidth]
    cases x.getLsbD 0 <;> simp; omega
  have : ((x.setWidth C) &&& 1).toNat < 2 ^ (C - 1) := by
    rw [h1]
    have : (2 : Nat) ^ 1 ≤ 2 ^ (C - 1) := Nat.pow_le_pow_right (by norm_num) (by omega)
    have := Bool.toNat_lt (x.getLsbD 0)
    omega
  rw [toInt_of_toNat_lt _ this, h1]

theorem range_map_succ (m : Nat) (f : Nat → Bool) : (List.range (m + 1)).map f = f 0 :: (List.range m).map fun i => f (i + 1) := by
  rw [List.range_succ_eq_map]; simp [Function.comp_def]

theorem foldl_bits_lt (l : List Bool) (V : Nat) : l.foldl (fun v t => 2 * v + t.toNat) V < (V + 1) * 2 ^ l.length := by
  induction l generalizing V with
  | nil => simp
  | cons t l ih =>
    refine lt_of_lt_of_le (ih _) ?_
    rw [List.length_cons, pow_succ', ← mul_assoc]
    apply Nat.mul_le_mul_right
    have := Bool.toNat_lt t
    show 2 * V + t.toNat + 1 ≤ _
    omega

theorem randBits_spec {b n : Nat} (ok : Ok C b) (hn : 2 ≤ n) (next : σ → BitVec 8 × σ) (count : Nat) (m : Limbs C) (V j : Nat)
    (r : BitVec 8) (s : σ) (hj : j < 8) (hm : Rep b n m V) (hV : (V + 1) * 2 ^ count ≤ 2 ^ (b * n)) :
    Rep b n (randBits next b count m j r s).1
      (((avail j r ++ bitsLSB (draw next ((count - (8 - j) % 8 + 7) / 8) s).1).take count).foldl (fun v t => 2 * v + t.toNat) V : Nat)
    ∧ (randBits next b count m j r s).2 = (draw next ((count - (8 - j) % 8 + 7) / 8) s).2 := by
  induction count generalizing m V j r s with
  | zero => simp [randBits, hm, draw]
  | succ count ih =>
    obtain ⟨hb, hC, hC2⟩ := ok
    have ok : Ok C b := ⟨hb, hC, hC2⟩
    have step : ∀ (x : BitVec 8), Rep b n ((shl b 1 m).set 0 (at' (shl b 1 m) 0 + ((x.setWidth C) &&& 1)))
        ((2 * V + (x.getLsbD 0).toNat : Nat) : Int) := by
      intro x
      have hx := bitval_toInt (C := C) x (by omega)
      have hlt : (V : Int) * 2 ^ 1 < 2 ^ (b * n) := by
        have : V * 2 < 2 ^ (b * n) := by
          have := Nat.mul_le_mul_left (V + 1) (Nat.pow_le_pow_right (n := 2) (by norm_num) (show 1 ≤ count + 1 by omega))
          omega
        exact_mod_cast this
      have h1 := shl_rep (k := 1) ok hm (by rw [Nat.div_eq_of_lt (by omega)]; omega) (by positivity) hlt
      have h2 := add_low_rep (k := 1) ok hn (by omega) h1 ((x.setWidth C) &&& 1) (by rw [hx]; positivity)
        (by rw [hx]; have := Bool.toNat_lt (x.getLsbD 0); omega)
      rw [hx] at h2
      have e : ((2 * V + (x.getLsbD 0).toNat : Nat) : Int) = V * 2 ^ 1 + ((x.getLsbD 0).toNat : Int) := by push_cast; ring
      rw [e]; exact h2
    have hV' : ∀ t : Bool, (2 * V + t.toNat + 1) * 2 ^ count ≤ 2 ^ (b * n) := by
      intro t
      refine le_trans ?_ hV
      rw [pow_succ', ← mul_assoc]
      apply Nat.mul_le_mul_right
      have := Bool.toNat_lt t
      omega
    by_cases h0 : j = 0
    · subst h0
      have h := ih _ (2 * V + ((next s).1.getLsbD 0).toNat) 1 (next s).1 (next s).2 (by omega) (step (next s).1) (hV' _)
      have e1 : (count + 1 - (8 - 0) % 8 + 7) / 8 = count / 8 + 1 := by omega
      have e2 : (count - (8 - 1) % 8 + 7) / 8 = count / 8 := by omega
      rw [e2] at h
      rw [e1]
      have ea : avail 0 r = [] := rfl
      have eb : bitsLSB (draw next (count / 8 + 1) s).1
          = (next s).1.getLsbD 0 :: (avail 1 (next s).1 ++ bitsLSB (draw next (count / 8) (next s).2).1) := by
        simp only [draw, bitsLSB, List.flatMap_cons, avail]
        rw [range_map_succ]; rfl
      rw [ea, List.nil_append, eb, List.take_succ_cons, List.foldl_cons]
      simpa [randBits, draw] using h
    · have h := ih _ (2 * V + ((r >>> 1).getLsbD 0).toNat) ((j + 1) % 8) (r >>> 1) s (by omega) (step (r >>> 1)) (hV' _)
      have ea : avail j r = (r >>> 1).getLsbD 0 :: avail ((j + 1) % 8) (r >>> 1) := by
        have e : (8 - j) % 8 = (8 - (j + 1) % 8) % 8 + 1 := by omega
        rw [avail, e, range_map_succ, avail]
        simp only [BitVec.getLsbD_ushiftRight, Nat.add_comm, Nat.add_left_comm]
      have e : (count + 1 - (8 - j) % 8 + 7) / 8 = (count - (8 - (j + 1) % 8) % 8 + 7) / 8 := by omega
      rw [e, ea, List.cons_append, List.take_succ_cons, List.foldl_cons]
      simpa [randBits, h0] using h

/-- the bits loop started afresh -/
theorem randBits_fresh {b n : Nat} (ok : Ok C b) (hn : 2 ≤ n) (next : σ → BitVec 8 × σ) (count : Nat) (s : σ)
    (hc : count ≤ b * n) :
    Rep b n (randBits next b count (zero C n) 0 0 s).1 (bitsNat ((bitsLSB (draw next ((count + 7) / 8) s).1).take count) : Nat)
    ∧ (randBits next b count (zero C n) 0 0 s).2 = (draw next ((count + 7) / 8) s).2 := by
  have h := randBits_spec ok hn next count (zero C n) 0 0 0 s (by omega) (zero_rep b n)
    (by simpa using Nat.pow_le_pow_right (n := 2) (by norm_num) hc)
  simpa [avail, bitsNat] using h

theorem bitsNat_lt (l : List Bool) (k : Nat) : bitsNat (l.take k) < 2 ^ k := by
  refine lt_of_lt_of_le (foldl_bits_lt _ 0) ?_
  rw [zero_add, one_mul]
  exact Nat.pow_le_pow_right (by norm_num) (by rw [List.length_take]; omega)

theorem random_spec {b n modbytes : Nat} (ok : Ok C b) (hn : 2 ≤ n) (hmb : 8 * modbytes ≤ b * n) (next : σ → BitVec 8 × σ) (s : σ) :
    Rep b n (random (C := C) next b n modbytes s).1 (bitsNat (bitsLSB (draw next modbytes s).1) : Nat)
    ∧ (random (C := C) next b n modbytes s).2 = (draw next modbytes s).2
    ∧ bitsNat (bitsLSB (draw next modbytes s).1) < 2 ^ (8 * modbytes) := by
  have h := randBits_fresh ok hn next (8 * modbytes) s hmb
  have e : (8 * modbytes + 7) / 8 = modbytes := by omega
  have hl : ∀ (k : Nat) (s : σ), (bitsLSB (draw next k s).1).length = 8 * k := by
    intro k
    induction k with
    | zero => intro s; rfl
    | succ k ih =>
      intro s
      have := ih (next s).2
      simp only [draw, bitsLSB, List.flatMap_cons, List.length_append, List.length_map, List.length_range] at this ⊢
      omega
  rw [e, List.take_of_length_le (hl modbytes s).le] at h
  refine ⟨h.1, h.2, ?_⟩
  have := bitsNat_lt (bitsLSB (draw next modbytes s).1) (8 * modbytes)
  rwa [List.take_of_length_le (hl modbytes s).le] at this

theorem randomnum_spec {b n : Nat} (ok : Ok C b) (hn : 2 ≤ n) (fuel : Nat) (hf : 2 * (b * n) ≤ fuel) {q : Limbs C} {Q : Int}
    (hq : Rep b n q Q) (hq' : Rep b n (norm b q) Q) (hQ0 : 0 < Q) (hQ : 2 * Q < 2 ^ (b * n)) (next : σ → BitVec 8 × σ) (s : σ) :
    ∃ r, randomnum next b fuel q s = (some r, (draw next ((2 * nbits b q + 7) / 8) s).2)
      ∧ Rep b n r ((bitsNat ((bitsLSB (draw next ((2 * nbits b q + 7) / 8) s).1).take (2 * nbits b q)) : Nat) % Q) := by
  obtain ⟨hb, hC, hC2⟩ := ok
  have ok : Ok C b := ⟨hb, hC, hC2⟩
  obtain ⟨n1, n2, _⟩ := nbits_spec ok q hq' hQ0.le
  obtain ⟨n3, n4⟩ := n2 (by omega)
  have hnb : nbits b q < b * n := by
    by_contra h
    have h1 : (2 : Int) ^ (b * n - 1) ≤ 2 ^ (nbits b q - 1) := pow_le_pow_right₀ (by norm_num) (by omega)
    have hbn : 0 < b * n := by positivity
    have h2 : (2 : Int) ^ (b * n) = 2 * 2 ^ (b * n - 1) := by rw [← pow_succ']; congr 1; omega
    omega
  have hc : 2 * nbits b q ≤ b * (2 * n) := by rw [show b * (2 * n) = 2 * (b * n) by ring]; omega
  obtain ⟨r1, r2⟩ := randBits_fresh ok (n := 2 * n) (by omega) next (2 * nbits b q) s hc
  have hlt := bitsNat_lt (bitsLSB (draw next ((2 * nbits b q + 7) / 8) s).1) (2 * nbits b q)
  set X := bitsNat ((bitsLSB (draw next ((2 * nbits b q + 7) / 8) s).1).take (2 * nbits b q)) with hX
  have hXi : (X : Int) < 2 ^ (2 * nbits b q) := by exact_mod_cast hlt
  have hcg := cap_ge (n := 2 * n) ok (by omega)
  have h2 : (2 : Int) * 2 ^ (2 * nbits b q) ≤ 2 ^ (b * (2 * n)) := by
    rw [← pow_succ']
    exact pow_le_pow_right₀ (by norm_num) (by rw [show b * (2 * n) = 2 * (b * n) by ring]; omega)
  have rn := r1.norm ok (by omega) (by have := cap_pos C b (2 * n); omega) (by omega)
  have hfl : (X : Int) < 2 ^ fuel * Q := by
    have h3 : (2 : Int) ^ (2 * nbits b q) ≤ 2 ^ fuel := pow_le_pow_right₀ (by norm_num) (by omega)
    have h4 : (2 : Int) ^ fuel * 1 ≤ 2 ^ fuel * Q := mul_le_mul_of_nonneg_left (by omega) (by positivity)
    omega
  obtain ⟨r, e1, e2⟩ := dmod_spec ok (by omega) fuel rn hq (by positivity) (by omega) hQ0 (by omega) hfl
  refine ⟨r, ?_, e2⟩
  simp only [randomnum, hq.len, e1, r2]

end Verif.Big
