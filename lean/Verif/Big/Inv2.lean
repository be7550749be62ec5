import Verif.Big.Inverse
/- Helper lemmas: inversion modulo powers of two. -/
namespace Verif.Big
open Spec (limbsVal Normal LimbsWithin)

variable {C : Nat}

set_option maxRecDepth 10000 in
theorem invmod256_all : ∀ k < 128, (invmod256 (BitVec.ofNat 64 (2 * k + 1))).toNat < 512 ∧
    (invmod256 (BitVec.ofNat 64 (2 * k + 1))).toNat * (2 * k + 1) % 256 = 1 := by
  decide +kernel

/-! ### left shift modulo the capacity of the array -/

theorem fshlGo_snoc {b k : Nat} (ws : Limbs C) (x prev : BitVec C) :
    fshlGo b k prev (ws ++ [x]) = (fshlGo b k prev (ws ++ [x, 0])).take ws.length ++
      [(x <<< k) ||| ((ws.getLastD prev).sshiftRight (b - k))] ∧
    (fshlGo b k prev (ws ++ [x, 0])).drop ws.length =
      [((x <<< k) &&& bmask C b) ||| ((ws.getLastD prev).sshiftRight (b - k)), x.sshiftRight (b - k)] := by
  induction ws generalizing prev with
  | nil => simp [fshlGo]
  | cons y ys ih =>
    obtain ⟨i1, i2⟩ := ih y
    have hl : (y :: ys).getLastD prev = ys.getLastD y := List.getLastD_cons ..
    have e1 : fshlGo b k prev ((y :: ys) ++ [x]) = (((y <<< k) &&& bmask C b) ||| prev.sshiftRight (b - k)) :: fshlGo b k y (ys ++ [x]) := by
      cases ys <;> simp [fshlGo]
    have e2 : fshlGo b k prev ((y :: ys) ++ [x, 0]) = (((y <<< k) &&& bmask C b) ||| prev.sshiftRight (b - k)) :: fshlGo b k y (ys ++ [x, 0]) := by
      cases ys <;> simp [fshlGo]
    rw [e1, e2, hl]
    refine ⟨?_, ?_⟩
    · conv => lhs; rw [i1]
      simp
    · simpa using i2

theorem or_emod {b k : Nat} (hb : b < C) (x p : BitVec C) :
    ((x <<< k) ||| p.sshiftRight (b - k)).toInt % 2 ^ b =
      (((x <<< k) &&& bmask C b) ||| p.sshiftRight (b - k)).toInt % 2 ^ b := by
  rw [← toInt_and_mask _ _ hb, ← toInt_and_mask _ _ hb]
  congr 1
  ext i hi
  simp
  cases (bmask C b)[i] <;> simp

/-- the top limb may overflow: the value is right modulo the capacity of the array -/
theorem fshl_mod {b k : Nat} (ok : Ok C b) (hk : k ≤ b) (ws : Limbs C) (hne : ws ≠ []) (hd : Digits b ws) :
    (∃ q : Int, limbsVal b (fshl b k ws) = 2 ^ k * limbsVal b ws + 2 ^ (b * ws.length) * q) ∧ Normal b (fshl b k ws) := by
  have hC := ok.hC
  have hb := ok.hb
  have hB := two_pow_pos' b
  -- the extended array does not overflow
  have hext : Digits b (ws ++ [0]) := hd.append (by intro z hz; simp at hz; subst hz; simp)
  have hl2 : 2 ≤ (ws ++ [(0 : BitVec C)]).length := by
    have := List.length_pos_of_ne_nil hne; simp; omega
  have hp := two_pow_pos' (C - 1)
  have hkC : (2 : Int) ^ k ≤ 2 ^ (C - 1) := pow_le_pow_right₀ (by norm_num) (by omega)
  obtain ⟨s1, s2, s3⟩ := fshl_spec' (n := k) ok hk (ws ++ [0]) hl2 hext.normal (by simp)
    (by simpa using hkC)
  have hve : limbsVal b (ws ++ [(0 : BitVec C)]) = limbsVal b ws := by rw [val_append]; simp [limbsVal]
  rw [hve] at s3
  cases ws with
  | nil => exact absurd rfl hne
  | cons x xs =>
    rcases List.eq_nil_or_concat xs with rfl | ⟨ys, y, rfl⟩
    · -- single limb
      have hx := hd x (by simp)
      have hm : ((x <<< k) &&& bmask C b).toInt = x.toInt * 2 ^ k % 2 ^ b := toInt_shl_mask x k b (by omega)
      refine ⟨⟨-(x.toInt * 2 ^ k / 2 ^ b), ?_⟩, trivial⟩
      simp only [fshl, fshlGo, limbsVal, hm, List.length_singleton, mul_one]
      have := Int.emod_add_mul_ediv (x.toInt * 2 ^ k) (2 ^ b)
      linear_combination this
    · rw [List.concat_eq_append] at *
      obtain ⟨g1, g2⟩ := fshlGo_snoc (b := b) (k := k) ys y x
      have hor := or_emod (k := k) (by omega : b < C) y (ys.getLastD x)
      have hsplit : fshlGo b k x (ys ++ [y, 0]) = (fshlGo b k x (ys ++ [y, 0])).take ys.length ++
          [((y <<< k) &&& bmask C b) ||| ((ys.getLastD x).sshiftRight (b - k)), y.sshiftRight (b - k)] := by
        rw [← g2, List.take_append_drop]
      have e1 : fshl b k (x :: (ys ++ [y])) = ((x <<< k) &&& bmask C b) :: fshlGo b k x (ys ++ [y]) := rfl
      have e2 : fshl b k (x :: (ys ++ [y]) ++ [0]) = ((x <<< k) &&& bmask C b) :: fshlGo b k x (ys ++ [y, 0]) := by
        simp [fshl]
      rw [e2] at s2 s3
      rw [e1, g1]
      rw [hsplit] at s2 s3
      generalize hL : (fshlGo b k x (ys ++ [y, 0])).take ys.length = L at *
      have hLl : L.length = ys.length := by
        rw [← hL, List.length_take, fshlGo_length]; simp
      generalize (y <<< k) ||| ((ys.getLastD x).sshiftRight (b - k)) = T at *
      generalize ((y <<< k) &&& bmask C b) ||| ((ys.getLastD x).sshiftRight (b - k)) = T' at *
      generalize y.sshiftRight (b - k) = Z at *
      generalize hW : ((x <<< k) &&& bmask C b) = W at *
      constructor
      · refine ⟨T.toInt / 2 ^ b - T'.toInt / 2 ^ b - Z.toInt, ?_⟩
        rw [← s3]
        simp only [limbsVal, val_append, hLl, List.length_cons, List.length_append, List.length_singleton, List.length_nil, Nat.zero_add]
        have d1 := Int.emod_add_mul_ediv T.toInt (2 ^ b)
        have d2 := Int.emod_add_mul_ediv T'.toInt (2 ^ b)
        rw [hor] at d1
        have hpw : (2 : Int) ^ (b * (ys.length + 1 + 1)) = 2 ^ b * (2 ^ b * 2 ^ (b * ys.length)) := by
          rw [← pow_add, ← pow_add]; congr 1; ring
        rw [hpw]
        simp only [mul_zero, add_zero]
        linear_combination (2 : Int) ^ b * 2 ^ (b * ys.length) * (d2 - d1)
      · -- all limbs but the top are those of the extended array
        have hlow : ∀ z ∈ W :: L, 0 ≤ z.toInt ∧ z.toInt < 2 ^ b := by
          intro z hz
          obtain ⟨i, hi, rfl⟩ := List.getElem_of_mem hz
          have hN := normal_drop s2 i
          have : (W :: (L ++ [T', Z])) = (W :: L) ++ [T', Z] := rfl
          rw [this, List.drop_append_of_le_length (by omega), List.drop_eq_getElem_cons hi] at hN
          exact hN.head (by simp)
        exact normal_append (W :: L) [T] hlow trivial

theorem shl_mod {b k : Nat} (ok : Ok C b) (ws : Limbs C) (hk : k / b < ws.length) (hd : Digits b ws) :
    (shl b k ws).length = ws.length ∧
    (∃ q : Int, limbsVal b (shl b k ws) = limbsVal b ws * 2 ^ k + 2 ^ (b * ws.length) * q) ∧ Normal b (shl b k ws) := by
  have hb := ok.hb
  have hkb := Nat.div_add_mod k b
  have hmod := Nat.mod_lt k (by omega : b > 0)
  have hlen : (shl b k ws).length = ws.length := by simp [shl]
  refine ⟨hlen, ?_⟩
  rw [shl_eq ws hk]
  have htl : (ws.take (ws.length - k / b)).length = ws.length - k / b := by simp
  have hne : ws.take (ws.length - k / b) ≠ [] := by intro h; rw [h] at htl; simp at htl; omega
  obtain ⟨⟨q, hq⟩, hN⟩ := fshl_mod (k := k % b) ok hmod.le _ hne (hd.take _)
  rw [htl] at hq
  obtain ⟨t1, t2⟩ := take_drop_val hd (ws.length - k / b) (Nat.sub_le _ _)
  constructor
  · have e := Int.emod_add_mul_ediv (limbsVal b ws) (2 ^ (b * (ws.length - k / b)))
    refine ⟨q - 2 ^ (k % b) * (limbsVal b ws / 2 ^ (b * (ws.length - k / b))), ?_⟩
    rw [val_append, val_replicate_zero, List.length_replicate, hq, t1]
    have h1 : (2 : Int) ^ k = 2 ^ (b * (k / b)) * 2 ^ (k % b) := by rw [← pow_add, hkb]
    have h2 : (2 : Int) ^ (b * ws.length) = 2 ^ (b * (k / b)) * 2 ^ (b * (ws.length - k / b)) := by
      rw [← pow_add, ← Nat.mul_add]; congr 2; omega
    rw [h1, h2]
    linear_combination (2 : Int) ^ (b * (k / b)) * 2 ^ (k % b) * e
  · exact normal_append _ _ (digits_zero b _) hN


/-! ### one Newton step -/

/-- the integer identity behind the loop body; `j` extra bits are gained -/
theorem newton_core {U A K J N s S1 S2 W R T : Int} (hK : 0 < K) (_hJ : 0 < J) (hJK : J ∣ K) (hN : K * J ∣ N)
    (hN0 : 0 < N) (hUA : U * A % K = 1) (hs : s = U * (A % K) / K) (h1 : S1 = U * (A % K) % N / K)
    (h2 : S2 = U * (A / K % K) % N % K) (hW : W = S1 + S2) (hR : R = W * U % N % K) (hT : T = K - R) :
    (U + T * K) * A ≡ 1 [ZMOD K * J] := by
  obtain ⟨a, ha⟩ := hJK
  obtain ⟨m, hm⟩ := hN
  -- U·B = 1 + K·s
  have eA := Int.emod_add_mul_ediv A K
  have hUB : U * (A % K) % K = 1 := by rw [← hUA, Int.mul_emod, Int.emod_emod_of_dvd A (dvd_refl K), ← Int.mul_emod]
  have eUB := Int.emod_add_mul_ediv (U * (A % K)) K
  rw [hUB, ← hs] at eUB
  -- S1
  have q1 : S1 = s - J * m * (U * (A % K) / N) := by
    have e := Int.emod_def (U * (A % K)) N
    rw [h1, e, hm, show K * J * m * (U * (A % K) / (K * J * m)) = K * (J * m * (U * (A % K) / (K * J * m))) by ring,
      Int.sub_mul_ediv_left _ _ hK.ne', ← hs]
  -- S2
  have d2 : J ∣ U * (A / K) - S2 := by
    have c1 : K ∣ U * (A / K % K) % N - S2 := by
      rw [h2]; exact Int.dvd_self_sub_emod
    have c2 : N ∣ U * (A / K % K) - U * (A / K % K) % N := Int.dvd_self_sub_emod
    have c3 : K ∣ A / K - A / K % K := Int.dvd_self_sub_emod
    have hJN : J ∣ N := ⟨K * m, by rw [hm]; ring⟩
    have hJK : J ∣ K := ⟨a, ha⟩
    have e : U * (A / K) - S2 = U * (A / K - A / K % K) + (U * (A / K % K) - U * (A / K % K) % N) + (U * (A / K % K) % N - S2) := by ring
    rw [e]
    exact dvd_add (dvd_add ((hJK.trans c3).mul_left _) (hJN.trans c2)) (hJK.trans c1)
  obtain ⟨q2, hq2⟩ := d2
  have d3 : J ∣ W * U + T := by
    have c1 : K ∣ W * U % N - R := by rw [hR]; exact Int.dvd_self_sub_emod
    have c2 : N ∣ W * U - W * U % N := Int.dvd_self_sub_emod
    have hJN : J ∣ N := ⟨K * m, by rw [hm]; ring⟩
    have hJK : J ∣ K := ⟨a, ha⟩
    have e : W * U + T = (W * U - W * U % N) + (W * U % N - R) + K := by rw [hT]; ring
    rw [e]
    exact dvd_add (dvd_add (hJN.trans c2) (hJK.trans c1)) hJK
  obtain ⟨q3, hq3⟩ := d3
  have hz := Int.emod_add_mul_ediv (U * A) K
  rw [hUA] at hz
  rw [Int.modEq_iff_dvd]
  refine ⟨-(m * (U * (A % K) / N) + q2 + q3 * A - W * (a * (U * A / K))), ?_⟩
  generalize U * (A % K) / N = Q1 at *
  generalize U * A / K = Z at *
  generalize A / K = A1 at *
  generalize A % K = A0 at *
  have hUA2 : U * A = 1 + K * s + K * (U * A1) := by rw [← eA]; linear_combination -eUB
  have hTA : T * A = q3 * J * A - W * (1 + J * a * Z) := by
    rw [← ha]; linear_combination A * hq3 + W * hz
  have : (U + T * K) * A = 1 + K * (s + U * A1 + T * A) := by linear_combination hUA2
  rw [this, hTA]
  have hs2 : s = W - S2 + J * m * Q1 := by rw [hW, q1]; ring
  rw [hs2]
  linear_combination (-K) * hq2

/-- `norm` result of a sum of digit arrays -/
theorem norm_add_digits {b n : Nat} (ok : Ok C b) (hn : 0 < n) {x y : Limbs C} (hx : Digits b x) (hy : Digits b y)
    (lx : x.length = n) (ly : y.length = n) : Rep b n (norm b (add x y)) (limbsVal b x + limbsVal b y) := by
  have hcg := cap_ge (n := n) ok hn
  have hcp := cap_pos C b n
  have bx := hx.bounds
  have byy := hy.bounds
  rw [lx] at bx; rw [ly] at byy
  exact norm_add_rep ok hn (lx ▸ Rep.of_digits hx) (ly ▸ Rep.of_digits hy) (by omega) (by omega) (by omega) (by omega)

theorem inv2Step_spec {b n i J : Nat} (ok : Ok C b) (hn : 2 ≤ n) {a u : Limbs C} {A U : Int} (ha : Digits b a)
    (la : a.length = n) (va : limbsVal b a = A) (hu : Rep b n (norm b u) U) (hU0 : 0 ≤ U) (hU1 : U < 2 ^ (i + 1))
    (hi : 8 ≤ i) (hin : i + 1 < b * n) (hJ1 : J ≤ i) (hJ2 : i + J ≤ b * n) (hUA : U * A % 2 ^ i = 1) :
    ∃ t T, inv2Step b i a u = add (norm b u) (shl b i t) ∧ Digits b (norm b u) ∧ Digits b t ∧ t.length = n ∧
      limbsVal b t = T ∧ 0 < T ∧ T ≤ 2 ^ i ∧ (U + T * 2 ^ i) * A ≡ 1 [ZMOD 2 ^ i * 2 ^ J] := by
  have hb := ok.hb
  have hC := ok.hC
  have hbp : 0 < b := by omega
  have hidx : i / b < n := (Nat.div_lt_iff_lt_mul hbp).2 (by rw [mul_comm n b]; omega)
  have hpi := two_pow_pos' i
  have hpN := two_pow_pos' (b * n)
  have hin' : (2 : Int) ^ (i + 1) ≤ 2 ^ (b * n) := pow_le_pow_right₀ (by norm_num) (by omega)
  have hiN : (2 : Int) ^ i ∣ 2 ^ (b * n) := pow_dvd_pow 2 (by omega)
  have du := hu.digits hU0 (by omega)
  have lu := hu.len
  -- b = a mod 2^i
  obtain ⟨l1, d1, v1⟩ := mod2m_spec (m := i) ok ha (by rw [la]; exact hidx)
  obtain ⟨l2, d2, v2⟩ := smul_spec ok du d1 (by rw [lu, l1, la])
  rw [lu, hu.val, v1, va] at v2
  have r2 : Rep b n (smul b (norm b u) (mod2m b i a)) (U * (A % 2 ^ i) % 2 ^ (b * n)) := ⟨by rw [l2, lu], d2.normal, v2⟩
  have b2 := Int.emod_nonneg (U * (A % 2 ^ i)) hpN.ne'
  have b2' := Int.emod_lt_of_pos (U * (A % 2 ^ i)) hpN
  have r3 := shr_rep (k := i) ok r2 hidx b2 b2'
  have hS1 : 0 ≤ U * (A % 2 ^ i) % 2 ^ (b * n) / 2 ^ i := Int.ediv_nonneg b2 hpi.le
  have hS1' : U * (A % 2 ^ i) % 2 ^ (b * n) / 2 ^ i < 2 ^ (b * n) := lt_of_le_of_lt (Int.ediv_le_self _ b2) b2'
  have hS1'' : U * (A % 2 ^ i) % 2 ^ (b * n) / 2 ^ i < 2 ^ (b * n - 1) := by
    apply Int.ediv_lt_of_lt_mul hpi
    refine lt_of_lt_of_le b2' ?_
    rw [← pow_add]; exact pow_le_pow_right₀ (by norm_num) (by omega)
  have d3 := r3.digits hS1 hS1'
  -- c = (a >> i) mod 2^i
  have ba := ha.bounds
  rw [la, va] at ba
  have rA : Rep b n a A := ⟨la, ha.normal, va⟩
  have r4 := shr_rep (k := i) ok rA hidx ba.1 ba.2
  have d4 := r4.digits (Int.ediv_nonneg ba.1 hpi.le) (lt_of_le_of_lt (Int.ediv_le_self _ ba.1) ba.2)
  obtain ⟨l5, d5, v5⟩ := mod2m_spec (m := i) ok d4 (by rw [r4.len]; exact hidx)
  obtain ⟨l6, d6, v6⟩ := smul_spec ok du d5 (by rw [lu, l5, r4.len])
  rw [lu, hu.val, v5, r4.val] at v6
  obtain ⟨l7, d7, v7⟩ := mod2m_spec (m := i) ok d6 (by rw [l6, lu]; exact hidx)
  rw [v6] at v7
  have b7 := Int.emod_lt_of_pos (U * (A / 2 ^ i % 2 ^ i) % 2 ^ (b * n)) hpi
  have b7' := Int.emod_nonneg (U * (A / 2 ^ i % 2 ^ i) % 2 ^ (b * n)) hpi.ne'
  -- sum
  have r8 := norm_add_digits ok (by omega) d3 d7 r3.len (by rw [l7, l6, lu])
  rw [r3.val, v7] at r8
  have hhalf : (2 : Int) ^ (b * n) = 2 * 2 ^ (b * n - 1) := by rw [← pow_succ']; congr 1; omega
  have hile : (2 : Int) ^ i ≤ 2 ^ (b * n - 1) := pow_le_pow_right₀ (by norm_num) (by omega)
  have d8 := r8.digits (by omega) (by omega)
  obtain ⟨l9, d9, v9⟩ := smul_spec ok d8 du (by rw [r8.len, lu])
  rw [r8.len, r8.val, hu.val] at v9
  obtain ⟨l10, d10, v10⟩ := mod2m_spec (m := i) ok d9 (by rw [l9, r8.len]; exact hidx)
  rw [v9] at v10
  generalize hR : (U * (A % 2 ^ i) % 2 ^ (b * n) / 2 ^ i + U * (A / 2 ^ i % 2 ^ i) % 2 ^ (b * n) % 2 ^ i) * U
    % 2 ^ (b * n) % 2 ^ i = R at v10
  have hR0 : 0 ≤ R := by rw [← hR]; exact Int.emod_nonneg _ hpi.ne'
  have hR1 : R < 2 ^ i := by rw [← hR]; exact Int.emod_lt_of_pos _ hpi
  -- 2^i
  have r11 := shl_rep (k := i) ok (one_rep (C := C) (n := n) ok (by omega)) hidx (by norm_num)
    (by rw [one_mul]; omega)
  rw [one_mul] at r11
  have hcg := cap_ge (n := n) ok (by omega)
  have r12 := norm_sub_rep ok (by omega) r11
    (⟨by rw [l10, l9, r8.len], d10.normal, v10⟩ : Rep b n _ R) (by omega) (by omega) (by omega) (by omega)
  have d12 := r12.digits (by omega) (by omega)
  refine ⟨_, 2 ^ i - R, ?_, du, d12, r12.len, r12.val, by omega, by omega, ?_⟩
  · simp only [inv2Step, rsub_eq, la]
  · exact newton_core hpi (two_pow_pos' J) (pow_dvd_pow 2 hJ1) (by rw [← pow_add]; exact pow_dvd_pow 2 hJ2) hpN hUA rfl rfl rfl rfl
      hR.symm rfl

/-! ### the whole loop -/

theorem add_mod {b : Nat} (ok : Ok C b) (x y : Limbs C) (hl : x.length = y.length) (hne : x ≠ []) (hx : Digits b x)
    (hy : Normal b y) :
    (∃ q : Int, limbsVal b (add x y) = limbsVal b x + limbsVal b y + 2 ^ (b * x.length) * q) ∧
      ∀ z ∈ (add x y).dropLast, -2 ^ (b + 1) ≤ z.toInt ∧ z.toInt ≤ 2 ^ (b + 1) := by
  have hC := ok.hC
  have hp := two_pow_pos' b
  have e1 : (2 : Int) ^ (b + 1) = 2 * 2 ^ b := pow_succ' 2 b
  have hle : (2 : Int) ^ (b + 1) ≤ 2 ^ (C - 1) := pow_le_pow_right₀ (by norm_num) (by omega)
  induction x generalizing y with
  | nil => exact absurd rfl hne
  | cons x xs ih =>
    cases y with
    | nil => simp at hl
    | cons y ys =>
      by_cases hxs : xs = []
      · subst hxs
        have : ys = [] := by simpa using hl.symm
        subst this
        constructor
        · have hadd : (x + y).toInt % 2 ^ b = (x.toInt + y.toInt) % 2 ^ b := by
            rw [BitVec.toInt_add]
            have : ((2 ^ C : Nat) : Int) = 2 ^ b * 2 ^ (C - b) := by push_cast; rw [← pow_add]; congr 1; omega
            have h1 : (x.toInt + y.toInt).bmod (2 ^ C) % 2 ^ b = (x.toInt + y.toInt) % 2 ^ b := by
              have hd : ((2 : Int) ^ b) ∣ (x.toInt + y.toInt) - (x.toInt + y.toInt).bmod (2 ^ C) := by
                refine Dvd.dvd.trans ?_ (Int.dvd_self_sub_bmod (x := x.toInt + y.toInt) (m := 2 ^ C))
                rw [this]; exact dvd_mul_right _ _
              exact (Int.emod_eq_emod_iff_emod_sub_eq_zero.2 (Int.emod_eq_zero_of_dvd hd)).symm
            exact h1
          have e2 := Int.emod_add_mul_ediv (x + y).toInt (2 ^ b)
          have e3 := Int.emod_add_mul_ediv (x.toInt + y.toInt) (2 ^ b)
          refine ⟨(x + y).toInt / 2 ^ b - (x.toInt + y.toInt) / 2 ^ b, ?_⟩
          simp only [add, List.zipWith_cons_cons, List.zipWith_nil_left, limbsVal, List.length_singleton, mul_one, mul_zero, add_zero]
          rw [hadd] at e2
          linear_combination e3 - e2
        · intro z hz; simp [add] at hz
      · have hys : ys ≠ [] := by rintro rfl; apply hxs; simpa using hl
        obtain ⟨⟨q, hq⟩, hw⟩ := ih ys (by simpa using hl) hxs (fun z hz => hx z (by simp [hz])) hy.tail
        have h1 := hx x (by simp)
        have h2 := hy.head hys
        have hadd : (x + y).toInt = x.toInt + y.toInt := toInt_add_of _ _ (by omega) (by omega) (by omega)
        constructor
        · refine ⟨q, ?_⟩
          simp only [add, List.zipWith_cons_cons, limbsVal, List.length_cons, Nat.mul_succ, pow_add, hadd] at hq ⊢
          rw [hq]; ring
        · intro z hz
          have hne2 : add xs ys ≠ [] := by
            intro h; have := congrArg List.length h; simp [add] at this
            rcases this with h | h
            · exact hxs h
            · exact hys h
          have e : add (x :: xs) (y :: ys) = (x + y) :: add xs ys := rfl
          rw [e, List.dropLast_cons_of_ne_nil hne2] at hz
          simp only [List.mem_cons] at hz
          rcases hz with rfl | hz
          · rw [hadd]; omega
          · exact hw z hz

/-- `mod2m` on limbs that are not digits: right modulo `2^m` -/
theorem mod2m_mod {b m : Nat} (ok : Ok C b) (w : Limbs C) (hm : m / b < w.length)
    (hw : ∀ z ∈ w.dropLast, -2 ^ (b + 1) ≤ z.toInt ∧ z.toInt ≤ 2 ^ (b + 1)) :
    (mod2m b m w).length = w.length ∧ (∃ q : Int, limbsVal b (mod2m b m w) = limbsVal b w + 2 ^ m * q) ∧
      LimbsWithin (2 ^ (b + 1)) (mod2m b m w) := by
  have hC := ok.hC
  have hb := ok.hb
  have hbp : 0 < b := by omega
  have hr := Nat.mod_lt m hbp
  have hk' : m = b * (m / b) + m % b := (Nat.div_add_mod m b).symm
  have hp := two_pow_pos' b
  have e1 : (2 : Int) ^ (b + 1) = 2 * 2 ^ b := pow_succ' 2 b
  unfold mod2m
  have hx : (at' w (m / b) &&& bmask C (m % b)).toInt = (at' w (m / b)).toInt % 2 ^ (m % b) := toInt_and_mask _ _ (by omega)
  have hle : (2 : Int) ^ (m % b) ≤ 2 ^ b := pow_le_pow_right₀ (by norm_num) hr.le
  have hx0 := Int.emod_nonneg (at' w (m / b)).toInt (two_pow_pos' (m % b)).ne'
  have hx1 := Int.emod_lt_of_pos (at' w (m / b)).toInt (two_pow_pos' (m % b))
  refine ⟨by simp; omega, ?_, ?_⟩
  · have e : w = w.take (m / b) ++ at' w (m / b) :: w.drop (m / b + 1) := by
      have h1 : w.drop (m / b) = w[m / b] :: w.drop (m / b + 1) := List.drop_eq_getElem_cons hm
      have h2 : at' w (m / b) = w[m / b] := by simp [at', hm]
      rw [h2, ← h1, List.take_append_drop]
    have hv : limbsVal b w = limbsVal b (w.take (m / b)) + 2 ^ (b * (m / b)) * ((at' w (m / b)).toInt + 2 ^ b * limbsVal b (w.drop (m / b + 1))) := by
      conv => lhs; rw [e, val_append, limbsVal, List.length_take, Nat.min_eq_left hm.le]
    have hd := Int.emod_add_mul_ediv (at' w (m / b)).toInt (2 ^ (m % b))
    refine ⟨-((at' w (m / b)).toInt / 2 ^ (m % b)) - 2 ^ (b - m % b) * limbsVal b (w.drop (m / b + 1)), ?_⟩
    rw [val_append, limbsVal, val_replicate_zero, hx, hv, List.length_take, Nat.min_eq_left hm.le]
    have h1 : (2 : Int) ^ m = 2 ^ (b * (m / b)) * 2 ^ (m % b) := by rw [← pow_add, ← hk']
    have h2 : (2 : Int) ^ b = 2 ^ (m % b) * 2 ^ (b - m % b) := by rw [← pow_add]; congr 1; omega
    rw [h1, h2]
    linear_combination (2 : Int) ^ (b * (m / b)) * hd
  · intro z hz
    rcases List.mem_append.1 hz with hz | hz
    · apply hw
      rw [List.dropLast_eq_take]
      exact (List.take_sublist_take_left (by omega) |>.subset) hz
    · simp only [List.mem_cons] at hz
      rcases hz with rfl | hz
      · rw [hx]; omega
      · rw [List.eq_of_mem_replicate hz]; simp

/-- state of the loop of `invmod2m` -/
theorem inv2Loop_spec {b n BB : Nat} (ok : Ok C b) (hn : 2 ≤ n) {a : Limbs C} {A : Int} (ha : Digits b a)
    (la : a.length = n) (va : limbsVal b a = A) (hBB : BB < b * n) (hBB8 : 8 < BB) (k i : Nat) (u : Limbs C) (U : Int)
    (hu : Rep b n (norm b u) U) (hU0 : 0 ≤ U) (hU1 : U < 2 ^ (i + 1)) (hi : 8 ≤ i) (hiB : i < BB)
    (hUA : U * A % 2 ^ i = 1) (hk : BB ≤ i * 2 ^ k) :
    (inv2Loop b BB a k i u).length = n ∧ limbsVal b (inv2Loop b BB a k i u) * A ≡ 1 [ZMOD 2 ^ BB] ∧
      ∀ z ∈ (inv2Loop b BB a k i u).dropLast, -2 ^ (b + 1) ≤ z.toInt ∧ z.toInt ≤ 2 ^ (b + 1) := by
  have hb := ok.hb
  have hC := ok.hC
  have hbp : 0 < b := by omega
  induction k generalizing i u U with
  | zero => simp at hk; omega
  | succ k ih =>
    rw [inv2Loop, if_pos hiB]
    have hidx : i / b < n := (Nat.div_lt_iff_lt_mul hbp).2 (by rw [mul_comm n b]; omega)
    have hpi := two_pow_pos' i
    by_cases hlast : 2 * i < BB
    · -- another round follows
      obtain ⟨t, T, e, du, dt, lt, vt, t0, t1, hcong⟩ := inv2Step_spec (J := i) ok hn ha la va hu hU0 hU1 hi (by omega) le_rfl (by omega) hUA
      have hp2 : (2 : Int) ^ i * 2 ^ i = 2 ^ (2 * i) := by rw [← pow_add]; congr 1; omega
      have hlt : (2 : Int) ^ (2 * i) < 2 ^ (b * n) := pow_lt_pow_right₀ (by norm_num) (by omega)
      have hTi : T * 2 ^ i ≤ 2 ^ (2 * i) := by rw [← hp2]; exact mul_le_mul_of_nonneg_right t1 hpi.le
      have rs := shl_rep (k := i) ok (⟨lt, dt.normal, vt⟩ : Rep b n t T) hidx t0.le (by omega)
      have ds := rs.digits (by positivity) (by omega)
      have rn := norm_add_digits ok (by omega) du ds hu.len rs.len
      rw [hu.val, rs.val, ← e] at rn
      have hsm : (2 : Int) ^ (i + 1) ≤ 2 ^ (2 * i) := pow_le_pow_right₀ (by norm_num) (by omega)
      refine ih (2 * i) _ _ rn (by positivity) (by rw [pow_succ]; omega) (by omega) hlast ?_ (by rw [pow_succ] at hk; nlinarith)
      rw [hp2] at hcong
      rw [hcong.eq]
      exact Int.emod_eq_of_lt (by norm_num) (by
        have : (2 : Int) ^ 1 ≤ 2 ^ (2 * i) := pow_le_pow_right₀ (by norm_num) (by omega)
        omega)
    · -- last round
      have hstop : inv2Loop b BB a k (2 * i) (inv2Step b i a u) = inv2Step b i a u := by
        cases k with
        | zero => rfl
        | succ k => rw [inv2Loop, if_neg hlast]
      rw [hstop]
      obtain ⟨t, T, e, du, dt, lt, vt, t0, t1, hcong⟩ := inv2Step_spec (J := BB - i) ok hn ha la va hu hU0 hU1 hi (by omega) (by omega) (by omega) hUA
      obtain ⟨ls, ⟨q, hq⟩, hN⟩ := shl_mod (k := i) ok t (by rw [lt]; exact hidx) dt
      have hl : (norm b u).length = (shl b i t).length := by rw [hu.len, ls, lt]
      obtain ⟨⟨q2, hq2⟩, hw⟩ := add_mod ok (norm b u) (shl b i t) hl (hu.ne_nil (by omega)) du hN
      rw [e]
      refine ⟨by simp [add, hu.len, ls, lt], ?_, hw⟩
      rw [hq2, hq, hu.val, vt, lt, hu.len]
      have hp2 : (2 : Int) ^ i * 2 ^ (BB - i) = 2 ^ BB := by rw [← pow_add]; congr 1; omega
      rw [hp2] at hcong
      have hd : (2 : Int) ^ BB ∣ 2 ^ (b * n) := pow_dvd_pow 2 hBB.le
      have e2 : (U + (T * 2 ^ i + 2 ^ (b * n) * q) + 2 ^ (b * n) * q2) * A = (U + T * 2 ^ i) * A + 2 ^ (b * n) * (q + q2) * A := by ring
      rw [e2]
      have : 2 ^ (b * n) * (q + q2) * A ≡ 0 [ZMOD 2 ^ BB] :=
        Int.modEq_zero_iff_dvd.2 ((hd.mul_right _).mul_right _)
      simpa using hcong.add this

theorem invmod2m_spec {b n BB : Nat} (ok : Ok C b) (hn : 2 ≤ n) {a : Limbs C} {A : Int} (ha : Rep b n (norm b a) A)
    (hA0 : 0 ≤ A) (hA1 : A < 2 ^ (b * n)) (hodd : A % 2 = 1) (hBB : BB < b * n) (hBB8 : 8 < BB) :
    ∃ V, Rep b n (invmod2m b BB a) V ∧ V * A ≡ 1 [ZMOD 2 ^ BB] := by
  have hb := ok.hb
  have hC := ok.hC
  have hbp : 0 < b := by omega
  have hl8 := lastbits_spec (k := 8) ok (by omega) ha
  have h80 := Int.emod_nonneg A (two_pow_pos' 8).ne'
  have h81 := Int.emod_lt_of_pos A (two_pow_pos' 8)
  -- the byte
  obtain ⟨k, hk⟩ : ∃ k : Nat, A % 2 ^ 8 = 2 * k + 1 := ⟨((A % 2 ^ 8) / 2).toNat, by omega⟩
  have hk128 : k < 128 := by norm_num at h81 hk; omega
  have hse : (lastbits b a 8).signExtend 64 = BitVec.ofNat 64 (2 * k + 1) := by
    rw [BitVec.signExtend, hl8, hk]
    apply BitVec.eq_of_toNat_eq
    simp [BitVec.toNat_ofInt]
    omega
  obtain ⟨i1, i2⟩ := invmod256_all k hk128
  unfold invmod2m
  rw [hse]
  generalize invmod256 (BitVec.ofNat 64 (2 * k + 1)) = s at *
  have hsI : s.toInt = s.toNat := toInt_of_toNat_lt s (by norm_num; omega)
  simp only [hsI, ha.len]
  have da := ha.digits hA0 hA1
  -- initial u
  have hnz : norm b (zero C n) = zero C n := by
    have hz := zero_rep (C := C) b n
    have hcp := cap_pos C b n
    have h1 := hz.norm ok (by omega) (by omega) (by omega)
    exact normal_unique _ _ (by rw [h1.len, hz.len]) h1.low hz.low (by rw [h1.val, hz.val])
  have hu0 : inc b (zero C n) (s.toNat : Int) = newInt C n s.toNat := by
    simp only [inc, hnz, newInt]
    congr 1
    have : at' (zero C n) 0 = 0 := by
      cases n with
      | zero => omega
      | succ m => simp [at', zero, List.replicate_succ]
    rw [this]; simp
  have h9 : (2 : Int) ^ 9 ≤ 2 ^ b := pow_le_pow_right₀ (by norm_num) hb
  have ru := newInt_rep (C := C) (n := n) ok (by omega) (s.toNat : Int) (by positivity) (by norm_num at h9; omega)
  have hcg := cap_ge (n := n) ok (by omega)
  have hbn : (2 : Int) ^ b ≤ 2 ^ (b * n) := pow_le_pow_right₀ (by norm_num) (Nat.le_mul_of_pos_right b (by omega))
  have ru' := ru.norm ok (by omega) (by omega) (by norm_num at h9; omega)
  rw [hu0]
  have hUA : (s.toNat : Int) * A % 2 ^ 8 = 1 := by
    rw [Int.mul_emod, ← Int.emod_emod_of_dvd A (dvd_refl ((2:Int)^8)), ← Int.mul_emod, hk]
    have : ((s.toNat * (2 * k + 1) % 256 : Nat) : Int) = 1 := by rw [i2]; rfl
    push_cast at this
    norm_num
    exact this
  obtain ⟨l1, c1, w1⟩ := inv2Loop_spec (BB := BB) ok hn da ha.len ha.val hBB hBB8 BB 8 (newInt C n s.toNat) s.toNat ru' (by positivity)
    (by norm_num; omega) le_rfl hBB8 hUA (by have := Nat.lt_two_pow_self (n := BB); omega)
  obtain ⟨l2, ⟨q, hq⟩, w2⟩ := mod2m_mod (m := BB) ok _ (by rw [l1]; exact (Nat.div_lt_iff_lt_mul hbp).2 (by rw [mul_comm n b]; omega)) w1
  have hle : (2 : Int) ^ (b + 1) ≤ 2 ^ (C - 2) := pow_le_pow_right₀ (by norm_num) (by omega)
  have hr := norm_rep ok _ (by intro h; rw [h] at l2; simp [l1] at l2; omega) (within_mono hle _ w2)
  rw [l2, l1] at hr
  refine ⟨_, hr, ?_⟩
  rw [hq, add_mul]
  have : 2 ^ BB * q * A ≡ 0 [ZMOD 2 ^ BB] := Int.modEq_zero_iff_dvd.2 ⟨q * A, by ring⟩
  simpa using c1.add this

end Verif.Big
