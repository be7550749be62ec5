import Verif.Fp.Pseudo
/- Goldilocks reduction. -/
namespace Verif.Big
open Spec

variable {C : Nat}

theorem normGo_nonneg {b : Nat} (ok : Ok C b) (ws : Limbs C) (carry : BitVec C) (hne : ws ≠ [])
    (hs : ∀ x ∈ ws, 0 ≤ x.toInt ∧ x.toInt + 2 ^ (C - 1 - b) ≤ 2 ^ (C - 1)) (hc1 : 0 ≤ carry.toInt) (hc2 : carry.toInt < 2 ^ (C - 1 - b)) :
    (normGo b carry ws).length = ws.length ∧ Normal b (normGo b carry ws)
      ∧ limbsVal b (normGo b carry ws) = limbsVal b ws + carry.toInt := by
  have hbC := ok.hC
  have hb := ok.hb
  induction ws generalizing carry with
  | nil => exact absurd rfl hne
  | cons x xs ih =>
    have hx := hs x (by simp)
    have hd : (x + carry).toInt = x.toInt + carry.toInt :=
      toInt_add_of _ _ (by omega) (by have := two_pow_pos' (C - 1); omega) (by omega)
    cases xs with
    | nil =>
      refine ⟨rfl, trivial, ?_⟩
      simp only [normGo, limbsVal, hd]; ring
    | cons y r =>
      have hBpos := two_pow_pos' b
      have hcar : ((x + carry).sshiftRight b).toInt = (x.toInt + carry.toInt) / 2 ^ b := by
        rw [toInt_sshr, hd]
      have hmul : (2 : Int) ^ (C - 1) = 2 ^ (C - 1 - b) * 2 ^ b := by rw [← pow_add]; congr 1; omega
      have hlo : 0 ≤ (x.toInt + carry.toInt) / 2 ^ b := Int.ediv_nonneg (by omega) hBpos.le
      have hhi : (x.toInt + carry.toInt) / 2 ^ b < 2 ^ (C - 1 - b) := Int.ediv_lt_of_lt_mul hBpos (by rw [← hmul]; omega)
      obtain ⟨i1, i2, i3⟩ := ih ((x + carry).sshiftRight b) (by simp) (fun z hz => hs z (by simp only [List.mem_cons] at hz ⊢; tauto))
        (by rw [hcar]; exact hlo) (by rw [hcar]; exact hhi)
      have hlow : ((x + carry) &&& bmask C b).toInt = (x.toInt + carry.toInt) % 2 ^ b := by
        rw [toInt_and_mask _ b (by omega), hd]
      show (((x + carry) &&& bmask C b) :: normGo b ((x + carry).sshiftRight b) (y :: r)).length = _ ∧ _
      refine ⟨by simp [i1], ?_, ?_⟩
      · exact Normal.cons (by rw [hlow]; exact Int.emod_nonneg _ hBpos.ne')
          (by rw [hlow]; exact Int.emod_lt_of_pos _ hBpos) i2
      · show limbsVal b (((x + carry) &&& bmask C b) :: normGo b ((x + carry).sshiftRight b) (y :: r)) = _
        simp only [limbsVal] at i3 ⊢
        rw [i3, hlow, hcar]
        have := Int.emod_add_mul_ediv (x.toInt + carry.toInt) (2 ^ b)
        linarith

/-- normalising non-negative limbs that leave room for the carry -/
theorem norm_nonneg {b : Nat} (ok : Ok C b) (ws : Limbs C) (hne : ws ≠ [])
    (hs : ∀ x ∈ ws, 0 ≤ x.toInt ∧ x.toInt + 2 ^ (C - 1 - b) ≤ 2 ^ (C - 1)) : Rep b ws.length (norm b ws) (limbsVal b ws) := by
  have h := normGo_nonneg ok ws 0 hne hs (by simp) (by simp)
  refine ⟨h.1, h.2.1, ?_⟩
  have := h.2.2
  simpa [norm] using this

/-- limbs between `0` and `k` times the largest digit -/
def Upto (b k : Nat) (w : Limbs C) : Prop := ∀ x ∈ w, 0 ≤ x.toInt ∧ x.toInt ≤ k * (2 ^ b - 1)

theorem upto_of {b : Nat} {w : Limbs C} (h : Digits b w) : Upto b 1 w := fun x hx => by have := h x hx; omega

theorem add_upto {b k l : Nat} (hC : 0 < C) {x y : Limbs C} (hl : x.length = y.length) (hx : Upto b k x) (hy : Upto b l y)
    (hr : ((k : Int) + l) * (2 ^ b - 1) < 2 ^ (C - 1)) :
    Upto b (k + l) (add x y) ∧ limbsVal b (add x y) = limbsVal b x + limbsVal b y ∧ (add x y).length = x.length := by
  have hB := two_pow_pos' b
  have e : ((k : Int) + l) * (2 ^ b - 1) = k * (2 ^ b - 1) + l * (2 ^ b - 1) := by ring
  have wx : LimbsWithin (k * (2 ^ b - 1)) x := fun z hz => by
    have := hx z hz
    have : (0 : Int) ≤ k * (2 ^ b - 1) := mul_nonneg (by positivity) (by omega)
    omega
  have wy : LimbsWithin (l * (2 ^ b - 1)) y := fun z hz => by
    have := hy z hz
    have : (0 : Int) ≤ l * (2 ^ b - 1) := mul_nonneg (by positivity) (by omega)
    omega
  refine ⟨?_, add_val hC x y hl _ _ wx wy (by omega), by simp [add, hl]⟩
  intro z hz
  obtain ⟨i, hi, rfl⟩ := List.getElem_of_mem hz
  have h1 : i < x.length := by simp [add] at hi; omega
  have h2 : i < y.length := by omega
  have a1 := hx _ (List.getElem_mem h1)
  have a2 := hy _ (List.getElem_mem h2)
  have : (add x y)[i] = x[i] + y[i] := by simp [add]
  rw [this, toInt_add_of _ _ hC (by have := two_pow_pos' (C - 1); omega) (by omega)]
  push_cast
  rw [e]
  omega

theorem set_val {b : Nat} (w : Limbs C) (i : Nat) (hi : i < w.length) (x : BitVec C) :
    limbsVal b (w.set i x) = limbsVal b w + 2 ^ (b * i) * (x.toInt - (at' w i).toInt) := by
  induction w generalizing i with
  | nil => simp at hi
  | cons y ys ih =>
    cases i with
    | zero => simp [limbsVal, at']; ring
    | succ i =>
      have := ih i (by simpa using hi)
      simp only [List.set_cons_succ, limbsVal]
      rw [this]
      have e : at' (y :: ys) (i + 1) = at' ys i := by simp [at']
      rw [e, show b * (i + 1) = b + b * i by ring, pow_add]
      ring

theorem upto_at {b k : Nat} {w : Limbs C} (h : Upto b k w) (i : Nat) : 0 ≤ (at' w i).toInt ∧ (at' w i).toInt ≤ k * (2 ^ b - 1) := by
  by_cases hi : i < w.length
  · exact h _ (at'_mem w i hi)
  · have : at' w i = 0 := by simp [at', List.getElem?_eq_none (not_lt.1 hi)]
    rw [this]
    have := two_pow_pos' b
    exact ⟨by simp, by simpa using mul_nonneg (by positivity) (by omega)⟩

theorem upto_bounds {b k : Nat} {w : Limbs C} (h : Upto b k w) : 0 ≤ limbsVal b w ∧ limbsVal b w ≤ k * (2 ^ (b * w.length) - 1) := by
  have hB := two_pow_pos' b
  induction w with
  | nil => simp [limbsVal]
  | cons x xs ih =>
    obtain ⟨i1, i2⟩ := ih (fun z hz => h z (by simp [hz]))
    have hx := h x (by simp)
    simp only [limbsVal, List.length_cons]
    have e : (2 : Int) ^ (b * (xs.length + 1)) = 2 ^ b * 2 ^ (b * xs.length) := by rw [← pow_add]; congr 1; ring
    have i3 := mul_le_mul_of_nonneg_left i2 hB.le
    have i4 := mul_nonneg hB.le i1
    refine ⟨by omega, ?_⟩
    rw [e]
    linarith [show (2 : Int) ^ b * (k * (2 ^ (b * xs.length) - 1)) + k * (2 ^ b - 1) = k * (2 ^ b * 2 ^ (b * xs.length) - 1) by ring]

theorem at'_last (w : Limbs C) (n : Nat) (hn : 0 < n) (hl : w.length = n) : at' w (n - 1) = w.getLastD 0 := by
  have hne : w ≠ [] := by intro e; rw [e] at hl; simp at hl; omega
  rw [List.getLastD_eq_getLast?, List.getLast?_eq_getElem?, hl]
  simp [at']

theorem at'_set_ne (w : Limbs C) (i j : Nat) (x : BitVec C) (h : i ≠ j) : at' (w.set i x) j = at' w j := by
  simp [at', List.getElem?_set, h]
end Verif.Big

namespace Verif.Fp
open Verif.Big Spec

variable {C : Nat} {P : Params C} {p : Nat}

set_option exponentiation.threshold 500 in
set_option maxHeartbeats 1000000 in
/-- the Goldilocks reduction, as long as no word overflows -/
theorem modulo_gm (h : GMConsts P p) {B : Nat} (hB : GMBound P B) (d : Limbs C) (hl : d.length = 2 * P.n) (hd : Digits P.b d)
    (hlt : limbsVal P.b d < B * (p * p)) :
    (modulo P d).length = P.n ∧ Digits P.b (modulo P d) ∧ limbsVal P.b (modulo P d) < 2 * p ∧
      ∃ q : Int, limbsVal P.b (modulo P d) = limbsVal P.b d + q * p := by
  have hm : modulo P d = moduloGM P d := by simp [modulo, h.type]
  rw [hm]
  have hn := h.hn
  have ok := h.ok
  have hb := ok.hb
  have hC := ok.hC
  have hpz : (0 : Int) < p := by exact_mod_cast h.ppos
  have hmb : P.modbits = P.b * (P.n - 1) + P.tbits := h.cpow
  have htb : P.tbits < P.b := Nat.mod_lt _ (by omega)
  have hup : (p : Int) < 2 ^ P.modbits := by exact_mod_cast h.upper
  have hM := two_pow_pos' P.modbits
  have hbits := h.mbits
  have hhalf : P.modbits / 2 = 224 := by omega
  have hMsq : (2 : Int) ^ P.modbits = 2 ^ 224 * 2 ^ 224 := by rw [hbits, ← pow_add]
  have hpv := h.pval
  obtain ⟨mid0, mid1⟩ := h.mid
  have htot : ((2 * B + 4 : Nat) : Int) * 2 ^ P.modbits ≤ 2 ^ (P.b * P.n) := by
    rw [hbits]; exact_mod_cast hB.total
  have hword : ((2 * B + 4 : Nat) : Int) * (1 + 2 ^ (224 % P.b)) + 2 * 2 ^ P.b + 2 ^ (C - 1 - P.b) ≤ 2 ^ (C - 1) := by exact_mod_cast hB.word
  have h224 := two_pow_pos' 224
  have hnum : ∀ x : Int, x ≤ 2 ^ 112 → 2 * ((x + 2) * (2 ^ 224 + 1)) < 2 ^ P.modbits := by
    intro x hx
    rw [hbits]
    norm_num at hx ⊢
    linarith
  generalize hT : (2 : Int) ^ 224 = T at *
  generalize hMM : (2 : Int) ^ P.modbits = M at *
  set W := limbsVal P.b d with hW
  have hW0 : 0 ≤ W := hd.bounds.1
  have hBN : (B : Int) * M ≤ 2 ^ (P.b * P.n) := by
    refine le_trans ?_ htot
    exact mul_le_mul_of_nonneg_right (by push_cast; omega) hM.le
  have hWB : W < B * M * M := by
    calc W < B * (p * p) := hlt
      _ ≤ B * (M * M) := mul_le_mul_of_nonneg_left (mul_le_mul hup.le hup.le hpz.le hM.le) (by positivity)
      _ = _ := by ring
  have hWM : W < M * 2 ^ (P.b * P.n) := by
    refine lt_of_lt_of_le hWB ?_
    rw [mul_comm M]
    exact mul_le_mul_of_nonneg_right hBN hM.le
  obtain ⟨s1, s2, s3, s4, s5, s6⟩ := split_spec ok hn h.toplimb h.bits hl hd (by rw [hMM]; exact hWM)
  rw [← hW, hMM] at s3 s6
  unfold moduloGM
  simp only [hhalf]
  set hi := (split P.b P.n P.modbits d).1 with hhi
  set lo0 := (split P.b P.n P.modbits d).2.take P.n with hlo
  set H := W / M with hH
  set L := W % M with hL
  have hL0 : 0 ≤ L := Int.emod_nonneg _ hM.ne'
  have hL1 : L < M := Int.emod_lt_of_pos _ hM
  have hWe : L + M * H = W := Int.emod_add_mul_ediv W _
  have hH0 : 0 ≤ H := Int.ediv_nonneg hW0 hM.le
  have hH1 : H < B * M := Int.ediv_lt_of_lt_mul hM hWB
  -- t shifted by half
  have repH : Rep P.b P.n hi H := ⟨s1, s2.normal, s3⟩
  have repHH := newScopy_rep ok (by omega : 0 < P.n) repH hH0
  have hTM : T ≤ M := by rw [hMsq]; nlinarith
  have hb2n : (2 : Int) ^ (P.b * (2 * P.n)) = 2 ^ (P.b * P.n) * 2 ^ (P.b * P.n) := by rw [← pow_add]; congr 1; ring
  have hMN : M ≤ 2 ^ (P.b * P.n) := by
    refine le_trans ?_ htot
    exact le_mul_of_one_le_left hM.le (by push_cast; omega)
  have hHT : H * T < M * 2 ^ (P.b * P.n) := by
    calc H * T ≤ H * M := mul_le_mul_of_nonneg_left hTM hH0
      _ < B * M * M := mul_lt_mul_of_pos_right hH1 hM
      _ ≤ 2 ^ (P.b * P.n) * M := mul_le_mul_of_nonneg_right hBN hM.le
      _ = _ := by ring
  have repS := shl_rep (k := 224) ok repHH (by omega) hH0 (by
    rw [hT, hb2n]
    exact lt_of_lt_of_le hHT (mul_le_mul_of_nonneg_right hMN (two_pow_pos' _).le))
  rw [hT] at repS
  have hHT0 : 0 ≤ H * T := mul_nonneg hH0 h224.le
  have digS := repS.digits hHT0 (by rw [hb2n]; exact lt_of_lt_of_le hHT (mul_le_mul_of_nonneg_right hMN (two_pow_pos' _).le))
  obtain ⟨u1, u2, u3, u4, u5, u6⟩ := split_spec ok hn h.toplimb h.bits repS.len digS (by rw [repS.val, hMM]; exact hHT)
  rw [repS.val, hMM] at u3 u6
  set tt := (split P.b P.n P.modbits (shl P.b 224 (newScopy P.b hi))).1 with htt
  set lo := (split P.b P.n P.modbits (shl P.b 224 (newScopy P.b hi))).2.take P.n with hlo2
  set A := H * T / M with hA
  set Z := H * T % M with hZ
  have hZ0 : 0 ≤ Z := Int.emod_nonneg _ hM.ne'
  have hZ1 : Z < M := Int.emod_lt_of_pos _ hM
  have hAe : Z + M * A = H * T := Int.emod_add_mul_ediv _ _
  have hA0 : 0 ≤ A := Int.ediv_nonneg hHT0 hM.le
  have hAT : A * T ≤ H := by
    by_contra hc
    have hc : H + 1 ≤ A * T := by omega
    have := mul_le_mul_of_nonneg_right hc h224.le
    rw [hMsq] at hAe
    have e1 : A * T * T = T * T * A := by ring
    have e2 : (H + 1) * T = H * T + T := by ring
    linarith
  have hBT : A ≤ M := by
    have h1 : A * T ≤ B * M := by omega
    have h2 : (B : Int) ≤ T := by
      have : (B : Int) * M ≤ 2 ^ (P.b * P.n) := hBN
      by_contra hc
      have hc : T < B := by omega
      -- 2^224 * 2^448 ≤ 2^(b n) impossible: P.sh bounds the room
      have hroom : (2 : Int) ^ (P.b * P.n) ≤ M * 2 ^ P.b := by
        rw [← hMM, ← pow_add]
        apply pow_le_pow_right₀ (by norm_num)
        have : P.b * P.n = P.b * (P.n - 1) + P.b := by
          conv => lhs; rw [show P.n = (P.n - 1) + 1 by omega]
          ring
        omega
      have hb224 : (2 : Int) ^ P.b ≤ T := by
        rw [← hT]
        apply pow_le_pow_right₀ (by norm_num)
        by_contra hx
        have : 224 / P.b = 0 := Nat.div_eq_of_lt (by omega)
        omega
      have : (B : Int) * M ≤ M * T := le_trans this (le_trans hroom (mul_le_mul_of_nonneg_left hb224 hM.le))
      have : (B : Int) ≤ T := by
        rw [mul_comm M] at this
        exact le_of_mul_le_mul_right this hM
      omega
    have h3 : A * T ≤ M * T := by
      calc A * T ≤ B * M := h1
        _ ≤ T * M := mul_le_mul_of_nonneg_right h2 hM.le
        _ = M * T := by ring
    exact le_of_mul_le_mul_right h3 h224
  -- the sums
  have hK : (4 : Int) * (2 ^ P.b - 1) + 2 ^ (C - 1 - P.b) ≤ 2 ^ (C - 1) := by
    have e : (2 : Int) ^ (C - 1) = 2 ^ (C - 1 - P.b) * 2 ^ P.b := by rw [← pow_add]; congr 1; omega
    have k4 : (4 : Int) ≤ 2 ^ (C - 1 - P.b) := by
      calc (4 : Int) = 2 ^ 2 := by norm_num
        _ ≤ _ := pow_le_pow_right₀ (by norm_num) (by omega)
    have hBp := two_pow_pos' P.b
    have : (4 : Int) * (2 ^ P.b - 1) ≤ 2 ^ (C - 1 - P.b) * (2 ^ P.b - 1) := mul_le_mul_of_nonneg_right k4 (by omega)
    rw [e]
    linarith [show (2 : Int) ^ (C - 1 - P.b) * (2 ^ P.b - 1) = 2 ^ (C - 1 - P.b) * 2 ^ P.b - 2 ^ (C - 1 - P.b) by ring]
  have hKp := two_pow_pos' (C - 1 - P.b)
  have hBp := two_pow_pos' P.b
  obtain ⟨a1, a2, a3⟩ := add_upto (b := P.b) (by omega) (by rw [s4, s1]) (upto_of s5) (upto_of s2) (by push_cast; omega)
  obtain ⟨b1, b2, b3⟩ := add_upto (b := P.b) (by omega) (by rw [a3, s4, u1]) a1 (upto_of u2) (by push_cast; omega)
  obtain ⟨c1, c2, c3⟩ := add_upto (b := P.b) (by omega) (by rw [b3, a3, s4, u4]) b1 (upto_of u5) (by push_cast; omega)
  set b1' := Big.add (Big.add (Big.add lo0 hi) tt) lo with hb1'
  have hlen1 : b1'.length = P.n := by rw [c3, b3, a3, s4]
  have repB := norm_nonneg ok b1' (by intro e; rw [e] at hlen1; simp at hlen1; omega) (fun x hx => by
    have := c1 x hx
    push_cast at this
    omega)
  rw [hlen1, c2, b2, a2, s6, s3, u3, u6] at repB
  have hMb : (2 : Int) ^ (P.b * P.n) ≥ ((2 * B + 4 : Nat) : Int) * M := htot
  have hexp : ((2 * B + 4 : Nat) : Int) * M = B * M + B * M + 4 * M := by push_cast; ring
  have digB := repB.digits (by omega) (by omega)
  have repT := shl_rep (k := 224) ok (⟨u1, u2.normal, u3⟩ : Rep P.b P.n tt A) (by omega) hA0 (by rw [hT]; omega)
  rw [hT] at repT
  have digT := repT.digits (mul_nonneg hA0 h224.le) (by omega)
  obtain ⟨e1, e2, e3⟩ := add_upto (b := P.b) (by omega) (by rw [repB.len, repT.len]) (upto_of digB) (upto_of digT) (by push_cast; omega)
  set t := Big.add (Big.norm P.b b1') (shl P.b 224 tt) with ht
  have htl : t.length = P.n := by rw [e3, repB.len]
  have htne : t ≠ [] := by intro e; rw [e] at htl; simp at htl; omega
  rw [repB.val, repT.val] at e2
  set S := L + H + A + Z + A * T with hS
  have hS0 : 0 ≤ S := by have := mul_nonneg hA0 h224.le; omega
  have hS1 : S < ((2 * B + 4 : Nat) : Int) * M := by omega
  -- top limb
  set τ := (top t).toInt with hτ
  have hτ0 : 0 ≤ τ := by
    have := upto_at e1 (P.n - 1)
    rw [at'_last t P.n (by omega) htl] at this
    exact this.1
  have hPt := two_pow_pos' P.tbits
  have hPn := two_pow_pos' (P.b * (P.n - 1))
  have hpw : M = 2 ^ (P.b * (P.n - 1)) * 2 ^ P.tbits := by rw [← hMM, hmb, pow_add]
  set y := τ / 2 ^ P.tbits with hy
  have hy0 : 0 ≤ y := Int.ediv_nonneg hτ0 hPt.le
  have hτe : τ % 2 ^ P.tbits + 2 ^ P.tbits * y = τ := Int.emod_add_mul_ediv _ _
  have hτm0 := Int.emod_nonneg τ hPt.ne'
  have hτm1 := Int.emod_lt_of_pos τ hPt
  have hcar : ((top t).sshiftRight P.tbits).toInt = y := by rw [toInt_sshr]
  have hmask : (top t &&& P.tmask).toInt = τ % 2 ^ P.tbits := by rw [Params.tmask, toInt_and_mask _ _ (by omega)]
  have htake := List.take_append_drop (P.n - 1) t
  have hdrop : t.drop (P.n - 1) = [top t] := by
    rw [← htl, List.drop_length_sub_one htne, top, List.getLastD_eq_getLast?, List.getLast?_eq_some_getLast htne]; rfl
  have htl1 : (t.take (P.n - 1)).length = P.n - 1 := by simp [htl]
  have hlowv := upto_bounds (w := t.take (P.n - 1)) (fun x hx => e1 x (List.mem_of_mem_take hx))
  rw [htl1] at hlowv
  have hSv : S = limbsVal P.b (t.take (P.n - 1)) + 2 ^ (P.b * (P.n - 1)) * τ := by
    rw [← e2]
    conv => lhs; rw [← htake]
    rw [hdrop, val_append, htl1]; simp [limbsVal, hτ]
  set Lw := limbsVal P.b (t.take (P.n - 1)) with hLw
  have hMy : M * y ≤ S := by
    rw [hpw, mul_assoc, hSv]
    have : 2 ^ (P.b * (P.n - 1)) * (2 ^ P.tbits * y) ≤ 2 ^ (P.b * (P.n - 1)) * τ := mul_le_mul_of_nonneg_left (by omega) hPn.le
    omega
  have hy1 : y ≤ 2 * B + 3 := by
    by_contra hc
    have hc : ((2 * B + 4 : Nat) : Int) ≤ y := by push_cast; omega
    have := mul_le_mul_of_nonneg_left hc hM.le
    rw [mul_comm] at this
    omega
  -- first set
  set t2 := t.set (P.n - 1) (top t &&& P.tmask) with ht2
  have ht2l : t2.length = P.n := by rw [ht2, List.length_set, htl]
  have v2 : limbsVal P.b t2 = Lw + 2 ^ (P.b * (P.n - 1)) * (τ % 2 ^ P.tbits) := by
    rw [ht2, set_val _ _ (by omega), at'_last t P.n (by omega) htl, e2, hmask, hSv]
    have : (t.getLastD 0).toInt = τ := rfl
    rw [this]; ring
  -- second set
  have hq0 := upto_at e1 0
  have e20 : at' t2 0 = at' t 0 := at'_set_ne _ _ _ _ (by omega)
  have hpos := two_pow_pos' (224 % P.b)
  have hyw : y * (1 + 2 ^ (224 % P.b)) ≤ ((2 * B + 4 : Nat) : Int) * (1 + 2 ^ (224 % P.b)) :=
    mul_le_mul_of_nonneg_right (by push_cast; omega) (by omega)
  have hyx : y * (1 + 2 ^ (224 % P.b)) = y + y * 2 ^ (224 % P.b) := by ring
  have hyp : 0 ≤ y * 2 ^ (224 % P.b) := mul_nonneg hy0 hpos.le
  have n0 : (at' t2 0 + (top t).sshiftRight P.tbits).toInt = (at' t 0).toInt + y := by
    rw [toInt_add_of _ _ (by omega) (by rw [e20, hcar]; have := two_pow_pos' (C - 1); push_cast at hq0; omega) (by rw [e20, hcar]; push_cast at hq0; omega), e20, hcar]
  set t3 := t2.set 0 (at' t2 0 + (top t).sshiftRight P.tbits) with ht3
  have ht3l : t3.length = P.n := by rw [ht3, List.length_set, ht2l]
  have v3 : limbsVal P.b t3 = limbsVal P.b t2 + y := by
    rw [ht3, set_val _ _ (by omega), n0, e20]; simp
  -- third set
  set i := 224 / P.b with hi'
  have e3i : at' t3 i = at' t i := by rw [ht3, at'_set_ne _ _ _ _ (by omega), ht2, at'_set_ne _ _ _ _ (by omega)]
  have hqi := upto_at e1 i
  have hsh : ((top t).sshiftRight P.tbits <<< (224 % P.b)).toInt = y * 2 ^ (224 % P.b) := by
    rw [toInt_shl_of _ _ (by omega) (by rw [hcar]; have := two_pow_pos' (C - 1); omega) (by rw [hcar]; omega), hcar]
  have n1 : (at' t3 i + ((top t).sshiftRight P.tbits <<< (224 % P.b))).toInt = (at' t i).toInt + y * 2 ^ (224 % P.b) := by
    rw [toInt_add_of _ _ (by omega) (by rw [e3i, hsh]; have := two_pow_pos' (C - 1); push_cast at hqi; omega) (by rw [e3i, hsh]; push_cast at hqi; omega), e3i, hsh]
  set t4 := t3.set i (at' t3 i + ((top t).sshiftRight P.tbits <<< (224 % P.b))) with ht4
  have ht4l : t4.length = P.n := by rw [ht4, List.length_set, ht3l]
  have v4 : limbsVal P.b t4 = limbsVal P.b t3 + y * T := by
    rw [ht4, set_val _ _ (by omega), n1, e3i, add_sub_cancel_left]
    have : (2 : Int) ^ (P.b * i) * 2 ^ (224 % P.b) = T := by rw [← pow_add, ← hT, hi', Nat.div_add_mod]
    rw [← this]; ring
  have lim4 : ∀ x ∈ t4, 0 ≤ x.toInt ∧ x.toInt + 2 ^ (C - 1 - P.b) ≤ 2 ^ (C - 1) := by
    have htb2 : (2 : Int) ^ P.tbits ≤ 2 ^ P.b := pow_le_pow_right₀ (by norm_num) htb.le
    intro x hx
    rcases List.mem_or_eq_of_mem_set hx with hx | rfl
    · rcases List.mem_or_eq_of_mem_set hx with hx | rfl
      · rcases List.mem_or_eq_of_mem_set hx with hx | rfl
        · have := e1 x hx
          push_cast at this
          omega
        · rw [hmask]; omega
      · rw [n0]; push_cast at hq0; omega
    · rw [n1]; push_cast at hqi; omega
  have repF := norm_nonneg ok t4 (by intro e; rw [e] at ht4l; simp at ht4l; omega) lim4
  rw [ht4l, v4, v3, v2] at repF
  set F := Lw + 2 ^ (P.b * (P.n - 1)) * (τ % 2 ^ P.tbits) + y + y * T with hF
  have hFS : F = S - y * p := by
    rw [hF, hpv, hSv, ← hτe, hpw]
    have : (Int.emod τ (2 ^ P.tbits)) = τ % 2 ^ P.tbits := rfl
    rw [hτe]
    have e := hτe
    have e' : 2 ^ (P.b * (P.n - 1)) * τ = 2 ^ (P.b * (P.n - 1)) * (τ % 2 ^ P.tbits) + 2 ^ (P.b * (P.n - 1)) * 2 ^ P.tbits * y := by
      conv => lhs; rw [← e]
      ring
    rw [e']; ring
  have hSW : S = W - (A + H) * p := by
    have : S - W = -(A + H) * p := by
      rw [← hWe, hS, hpv]
      linear_combination hAe
    linarith
  have hF0 : 0 ≤ F := by
    have := mul_nonneg hPn.le hτm0
    have := mul_nonneg hy0 h224.le
    omega
  have hF2 : F < 2 * p := by
    have h1 : 2 ^ (P.b * (P.n - 1)) * (τ % 2 ^ P.tbits) ≤ M - 2 ^ (P.b * (P.n - 1)) := by
      have : 2 ^ (P.b * (P.n - 1)) * (τ % 2 ^ P.tbits) ≤ 2 ^ (P.b * (P.n - 1)) * (2 ^ P.tbits - 1) := mul_le_mul_of_nonneg_left (by omega) hPn.le
      rw [hpw]; linarith [show (2:Int) ^ (P.b * (P.n - 1)) * (2 ^ P.tbits - 1) = 2 ^ (P.b * (P.n - 1)) * 2 ^ P.tbits - 2 ^ (P.b * (P.n - 1)) by ring]
    have h2 : 2 * 2 ^ (P.b * (P.n - 1)) ≤ M := by
      rw [hpw]
      have : (2 : Int) ^ 1 ≤ 2 ^ P.tbits := pow_le_pow_right₀ (by norm_num) h.bits
      have := mul_le_mul_of_nonneg_left this hPn.le
      linarith
    have h3 := hnum y (by
      have : ((2 * B + 4 : Nat) : Int) ≤ 2 ^ P.b := by
        have e1 : (2 : Int) ^ (P.b * P.n) ≤ M * 2 ^ P.b := by
          rw [← hMM, ← pow_add]
          apply pow_le_pow_right₀ (by norm_num)
          have : P.b * P.n = P.b * (P.n - 1) + P.b := by
            conv => lhs; rw [show P.n = (P.n - 1) + 1 by omega]
            ring
          omega
        have := le_trans htot e1
        rw [mul_comm M] at this
        exact le_of_mul_le_mul_right this hM
      have h112 : (2 : Int) ^ P.b ≤ 2 ^ 112 := by
        apply pow_le_pow_right₀ (by norm_num)
        have : P.b * (224 / P.b) ≤ 224 := Nat.mul_div_le _ _
        have : P.b * 2 ≤ P.b * (224 / P.b) := Nat.mul_le_mul_left _ mid0
        omega
      push_cast at this
      omega)
    have h4 : y * (T + 1) = y * T + y := by ring
    rw [hpv]
    push_cast at hlowv
    linarith
  have h2p : (2 : Int) * p < 2 ^ (P.b * P.n) := by omega
  refine ⟨repF.len, repF.digits hF0 (by omega), by rw [repF.val]; exact hF2, -(A + H + y), ?_⟩
  rw [repF.val, hFS, hSW]
  ring

end Verif.Fp
