import Verif.Ecp.Mul4
import Verif.Ecp.WindowOk
/- The four-dimensional multiplication computes `u0 Q0 + u1 Q1 + u2 Q2 + u3 Q3`. -/
namespace Verif.Ecp
open Verif.Big Spec

variable {C : Nat} {X G : Type} [AddCommGroup G] {o : PtOps X} {Low Rel : X → G → Prop}

/-! ### bitwise or of digit strings -/

theorem or_word {b : Nat} (hb : b + 2 ≤ C) {u v : BitVec C} (hu : 0 ≤ u.toInt) (hu' : u.toInt < 2 ^ b) (hv : 0 ≤ v.toInt) (hv' : v.toInt < 2 ^ b) :
    u.toInt ≤ (u ||| v).toInt ∧ v.toInt ≤ (u ||| v).toInt ∧ (u ||| v).toInt < 2 ^ b := by
  have e1 := toNat_of_toInt_nonneg u hu
  have e2 := toNat_of_toInt_nonneg v hv
  have h1 : u.toNat < 2 ^ b := by
    have : ((2 ^ b : Nat) : Int) = 2 ^ b := by push_cast; rfl
    omega
  have h2 : v.toNat < 2 ^ b := by
    have : ((2 ^ b : Nat) : Int) = 2 ^ b := by push_cast; rfl
    omega
  have h3 : (u ||| v).toNat < 2 ^ b := by rw [BitVec.toNat_or]; exact Nat.or_lt_two_pow h1 h2
  have h4 : (u ||| v).toInt = (u ||| v).toNat := by
    rw [BitVec.toInt_eq_toNat_of_lt]
    have : 2 * 2 ^ b ≤ 2 ^ C := by rw [← pow_succ']; exact Nat.pow_le_pow_right (by norm_num) (by omega)
    omega
  have h5 : u.toNat ≤ (u ||| v).toNat := by rw [BitVec.toNat_or]; exact Nat.left_le_or
  have h6 : v.toNat ≤ (u ||| v).toNat := by rw [BitVec.toNat_or]; exact Nat.right_le_or
  have : ((2 ^ b : Nat) : Int) = 2 ^ b := by push_cast; rfl
  omega

theorem or_digits {b : Nat} (hb : b + 2 ≤ C) : ∀ (x y : Limbs C), Digits b x → Digits b y → x.length = y.length →
    Digits b (Big.or x y) ∧ (Big.or x y).length = x.length ∧ limbsVal b x ≤ limbsVal b (Big.or x y) ∧ limbsVal b y ≤ limbsVal b (Big.or x y)
  | [], [], _, _, _ => by simp [Big.or, limbsVal, Digits]
  | [], _ :: _, _, _, h => by simp at h
  | _ :: _, [], _, _, h => by simp at h
  | u :: x, v :: y, hx, hy, hl => by
    obtain ⟨i1, i2, i3, i4⟩ := or_digits hb x y (fun z hz => hx z (by simp [hz])) (fun z hz => hy z (by simp [hz])) (by simpa using hl)
    have a := hx u (by simp)
    have c := hy v (by simp)
    obtain ⟨w1, w2, w3⟩ := or_word hb a.1 a.2 c.1 c.2
    have e : Big.or (u :: x) (v :: y) = (u ||| v) :: Big.or x y := rfl
    rw [e]
    refine ⟨?_, by simp [i2], ?_, ?_⟩
    · intro z hz
      rcases List.mem_cons.mp hz with rfl | hz
      · exact ⟨by omega, w3⟩
      · exact i1 z hz
    · simp only [limbsVal]
      have := mul_le_mul_of_nonneg_left i3 (two_pow_pos' b).le
      omega
    · simp only [limbsVal]
      have := mul_le_mul_of_nonneg_left i4 (two_pow_pos' b).le
      omega

/-! ### recoding -/

theorem fshr1_rep {b n : Nat} (ok : Ok C b) {t : Limbs C} {T : Nat} (h : Rep b n t T) : Rep b n (fshr b 1 t) ((T / 2 : Nat) : Int) := by
  have hb := ok.hb
  obtain ⟨f1, f2⟩ := fshr_spec ok (by omega : 1 ≤ b) _ h.low
  refine ⟨by rw [fshr_length, h.len], f1, ?_⟩
  rw [f2, h.val]; push_cast; rfl

theorem digit4_spec {b n : Nat} (ok : Ok C b) (hn : 2 ≤ n) {s : Int} (hs : s = 1 ∨ s = -1) {t : Limbs C} {T : Nat} (h : Rep b n t T) (hT : (T : Int) < 2 ^ (b * n)) :
    (digit4 b s t).1 = s * ((T % 2 : Nat) : Int) ∧ ∃ T' : Nat, Rep b n (digit4 b s t).2 T' ∧ (T : Int) = s * ((T % 2 : Nat) : Int) + 2 * T' := by
  have hp := h.parity ok hn
  have hf := fshr1_rep ok h
  have e1 : (digit4 b s t).1 = s * ((T % 2 : Nat) : Int) := by unfold digit4; simp only [hp]; push_cast; rfl
  refine ⟨e1, ?_⟩
  have e2 : (digit4 b s t).2 = norm b (dec b (fshr b 1 t) ((digit4 b s t).1 / 2)) := rfl
  rw [e2, e1]
  have hx : |s * ((T % 2 : Nat) : Int) / 2| < 2 ^ 5 := by
    rw [abs_lt]; rcases hs with rfl | rfl <;> omega
  have hd := (norm_inc_rep ok (by omega) hf (by omega) (by omega) _ hx).2
  refine ⟨((T / 2 : Nat) - s * ((T % 2 : Nat) : Int) / 2 : Int).toNat, ?_, ?_⟩
  · rw [Int.toNat_of_nonneg (by rcases hs with rfl | rfl <;> omega)]; exact hd
  · rw [Int.toNat_of_nonneg (by rcases hs with rfl | rfl <;> omega)]
    rcases hs with rfl | rfl <;> omega

/-- the sum of `Q0` and a subset of `Q1`, `Q2`, `Q3` -/
def sub4 (g0 g1 g2 g3 : G) (m : Nat) : G := g0 + (m % 2) • g1 + (m / 2 % 2) • g2 + (m / 4 % 2) • g3

/-- the point chosen by an odd digit -/
def pick4 (g0 g1 g2 g3 : G) (d : Int) : G :=
  if d < 0 then -sub4 g0 g1 g2 g3 ((d.natAbs - 1) / 2) else sub4 g0 g1 g2 g3 ((d.natAbs - 1) / 2)

theorem pick4_spec (g0 g1 g2 g3 : G) {s : Int} (hs : s = 1 ∨ s = -1) {p1 p2 p3 : Nat} (h1 : p1 < 2) (h2 : p2 < 2) (h3 : p3 < 2) :
    pick4 g0 g1 g2 g3 (2 * (s * p1 + 2 * (s * p2) + 4 * (s * p3)) + s) = s • g0 + (s * p1) • g1 + (s * p2) • g2 + (s * p3) • g3 := by
  have key : ((2 * (s * p1 + 2 * (s * p2) + 4 * (s * p3)) + s).natAbs - 1) / 2 = p1 + 2 * p2 + 4 * p3 := by
    rcases hs with rfl | rfl <;> omega
  have k1 : (p1 + 2 * p2 + 4 * p3) % 2 = p1 := by omega
  have k2 : (p1 + 2 * p2 + 4 * p3) / 2 % 2 = p2 := by omega
  have k3 : (p1 + 2 * p2 + 4 * p3) / 4 % 2 = p3 := by omega
  unfold pick4 sub4
  rw [key, k1, k2, k3]
  rcases hs with rfl | rfl
  · rw [if_neg (by omega)]
    simp only [one_mul, one_smul, natCast_zsmul]
  · rw [if_pos (by omega)]
    simp only [neg_mul, one_mul, neg_smul, one_smul, natCast_zsmul]
    abel

/-- value of a digit string, least significant digit first -/
def val4 (f : Int → G) : List Int → G
  | [] => 0
  | d :: ds => f d + (2 : Int) • val4 f ds

theorem signs_ne {b : Nat} (k : Nat) (t : Limbs C) : signs b k t ≠ [] := by cases k <;> simp [signs]

theorem recode4_spec {b n : Nat} (ok : Ok C b) (hn : 2 ≤ n) (g0 g1 g2 g3 : G) (k : Nat) :
    ∀ (t0 t1 t2 t3 : Limbs C) (T0 T1 T2 T3 : Nat), Rep b n t0 T0 → Rep b n t1 T1 → Rep b n t2 T2 → Rep b n t3 T3 → T0 < 2 ^ (k + 1) →
      T1 ≤ 2 ^ k → T2 ≤ 2 ^ k → T3 ≤ 2 ^ k → (T1 : Int) < 2 ^ (b * n) → (T2 : Int) < 2 ^ (b * n) → (T3 : Int) < 2 ^ (b * n) →
      (∀ d ∈ recode4 b (signs b k t0) t1 t2 t3, d % 2 = 1 ∧ |d| < 16) ∧ recode4 b (signs b k t0) t1 t2 t3 ≠ [] ∧
        val4 (pick4 g0 g1 g2 g3) (recode4 b (signs b k t0) t1 t2 t3) = (2 * (T0 / 2) + 1) • g0 + T1 • g1 + T2 • g2 + T3 • g3 := by
  have digits : ∀ {s : Int} (_ : s = 1 ∨ s = -1) {p1 p2 p3 : Nat} (_ : p1 < 2) (_ : p2 < 2) (_ : p3 < 2),
      (2 * (s * p1 + 2 * (s * p2) + 4 * (s * p3)) + s) % 2 = 1 ∧ |2 * (s * p1 + 2 * (s * p2) + 4 * (s * p3)) + s| < 16 := by
    intro s hs p1 p2 p3 h1 h2 h3
    refine ⟨by rcases hs with rfl | rfl <;> omega, ?_⟩
    rw [abs_lt]; rcases hs with rfl | rfl <;> omega
  induction k with
  | zero =>
    intro t0 t1 t2 t3 T0 T1 T2 T3 r0 r1 r2 r3 h0 h1 h2 h3 c1 c2 c3
    obtain ⟨d1, T1', _, q1⟩ := digit4_spec ok hn (Or.inl rfl) r1 c1
    obtain ⟨d2, T2', _, q2⟩ := digit4_spec ok hn (Or.inl rfl) r2 c2
    obtain ⟨d3, T3', _, q3⟩ := digit4_spec ok hn (Or.inl rfl) r3 c3
    have e : recode4 b (signs b 0 t0) t1 t2 t3 = [2 * (1 * ((T1 % 2 : Nat) : Int) + 2 * (1 * ((T2 % 2 : Nat) : Int)) + 4 * (1 * ((T3 % 2 : Nat) : Int))) + 1] := by
      simp only [signs, recode4, d1, d2, d3]
    rw [e]
    have m1 := Nat.mod_lt T1 (by norm_num : 0 < 2)
    have m2 := Nat.mod_lt T2 (by norm_num : 0 < 2)
    have m3 := Nat.mod_lt T3 (by norm_num : 0 < 2)
    refine ⟨?_, by simp, ?_⟩
    · intro d hd
      rw [List.mem_singleton.mp hd]
      exact digits (Or.inl rfl) m1 m2 m3
    · simp only [val4, smul_zero, add_zero]
      rw [pick4_spec g0 g1 g2 g3 (Or.inl rfl) m1 m2 m3]
      norm_num at h0 h1 h2 h3
      have z0 : T0 / 2 = 0 := by omega
      rw [z0, show T1 % 2 = T1 by omega, show T2 % 2 = T2 by omega, show T3 % 2 = T3 by omega]
      simp
  | succ k ih =>
    intro t0 t1 t2 t3 T0 T1 T2 T3 r0 r1 r2 r3 h0 h1 h2 h3 c1 c2 c3
    have f0 := fshr1_rep ok r0
    have hp := f0.parity ok hn
    set s : Int := 2 * parity (fshr b 1 t0) - 1 with hsd
    have hs : s = 1 ∨ s = -1 := by rw [hsd, hp]; omega
    obtain ⟨d1, T1', r1', q1⟩ := digit4_spec ok hn hs r1 c1
    obtain ⟨d2, T2', r2', q2⟩ := digit4_spec ok hn hs r2 c2
    obtain ⟨d3, T3', r3', q3⟩ := digit4_spec ok hn hs r3 c3
    have e : recode4 b (signs b (k + 1) t0) t1 t2 t3 = (2 * (s * ((T1 % 2 : Nat) : Int) + 2 * (s * ((T2 % 2 : Nat) : Int)) + 4 * (s * ((T3 % 2 : Nat) : Int))) + s) ::
        recode4 b (signs b k (fshr b 1 t0)) (digit4 b s t1).2 (digit4 b s t2).2 (digit4 b s t3).2 := by
      simp only [signs, recode4, ← hsd, d1, d2, d3]
    have m1 := Nat.mod_lt T1 (by norm_num : 0 < 2)
    have m2 := Nat.mod_lt T2 (by norm_num : 0 < 2)
    have m3 := Nat.mod_lt T3 (by norm_num : 0 < 2)
    rw [pow_succ] at h1 h2 h3
    have half : ∀ {T T' : Nat}, (T : Int) = s * ((T % 2 : Nat) : Int) + 2 * T' → T ≤ 2 ^ k * 2 → T' ≤ 2 ^ k := by
      intro T T' q h
      rcases hs with hs | hs <;> rw [hs] at q <;> omega
    have less : ∀ {T T' : Nat}, (T : Int) = s * ((T % 2 : Nat) : Int) + 2 * T' → (T : Int) < 2 ^ (b * n) → (T' : Int) < 2 ^ (b * n) := by
      intro T T' q h
      refine lt_of_le_of_lt ?_ h
      rcases hs with hs | hs <;> rw [hs] at q <;> omega
    obtain ⟨i1, i2, i3⟩ := ih (fshr b 1 t0) _ _ _ (T0 / 2) T1' T2' T3' f0 r1' r2' r3' (by rw [pow_succ] at h0; omega) (half q1 h1) (half q2 h2) (half q3 h3) (less q1 c1) (less q2 c2) (less q3 c3)
    rw [e]
    refine ⟨?_, by simp, ?_⟩
    · intro d hd
      rcases List.mem_cons.mp hd with rfl | hd
      · exact digits hs m1 m2 m3
      · exact i1 d hd
    · simp only [val4]
      rw [i3, pick4_spec g0 g1 g2 g3 hs m1 m2 m3]
      have c0 : ((2 * (T0 / 2) + 1 : Nat) : Int) = s + 2 * ((2 * (T0 / 2 / 2) + 1 : Nat) : Int) := by
        rw [hsd, hp]; omega
      rw [← natCast_zsmul g0 (2 * (T0 / 2) + 1), ← natCast_zsmul g1 T1, ← natCast_zsmul g2 T2, ← natCast_zsmul g3 T3, c0, q1, q2, q3]
      simp only [← natCast_zsmul _ (2 * (T0 / 2 / 2) + 1), ← natCast_zsmul _ T1', ← natCast_zsmul _ T2', ← natCast_zsmul _ T3']
      module

theorem val4_horner (f : Int → G) (ds : List Int) (d : Int) :
    ds.foldl (fun a d => (2 : Int) • a + f d) (f d) = val4 f (ds.reverse ++ [d]) := by
  have key : ∀ (l : List Int) (a : G), l.foldl (fun a d => (2 : Int) • a + f d) a = val4 f l.reverse + ((2 : Int) ^ l.length) • a := by
    intro l
    induction l using List.reverseRecOn with
    | nil => intro a; simp [val4]
    | append_singleton l x ih =>
      intro a
      rw [List.foldl_append, ih]
      simp only [List.foldl_cons, List.foldl_nil, List.reverse_append, List.reverse_cons, List.reverse_nil, List.nil_append, List.singleton_append, val4,
        List.length_append, List.length_cons, List.length_nil, zero_add]
      rw [smul_add, smul_smul, ← pow_succ' (2 : Int)]
      abel
  have app : ∀ (l : List Int), val4 f (l ++ [d]) = val4 f l + ((2 : Int) ^ l.length) • f d := by
    intro l
    induction l with
    | nil => simp [val4]
    | cons x l ih =>
      simp only [List.cons_append, val4, ih, List.length_cons]
      rw [smul_add, smul_smul, ← pow_succ' (2 : Int)]
      abel
  rw [key, app, List.length_reverse]

theorem table4_spec (h : PtSound o Low Rel) {q0 q1 q2 q3 : X} {g0 g1 g2 g3 : G} (h0 : Low q0 g0) (h1 : Rel q1 g1) (h2 : Rel q2 g2) (h3 : Rel q3 g3) :
    ∀ i < 8, ∀ x, Low ((table4 o q0 q1 q2 q3).getD i x) (sub4 g0 g1 g2 g3 i) := by
  have a1 := h.add (h.low h0) h1
  have a2 := h.add (h.low h0) h2
  have a3 := h.add (h.low a1) h2
  have a4 := h.add (h.low h0) h3
  have a5 := h.add (h.low a1) h3
  have a6 := h.add (h.low a2) h3
  have a7 := h.add (h.low a3) h3
  intro i hi x
  interval_cases i <;> simp only [table4, List.getD_cons_zero, List.getD_cons_succ, sub4] <;> norm_num
  · exact h0
  · exact a1
  · exact a2
  · exact a3
  · exact a4
  · exact a5
  · exact a6
  · exact a7

/-- `mul4Win` computes `E0 Q0 + E1 Q1 + E2 Q2 + E3 Q3` -/
theorem mul4Win_spec (h : PtSound o Low Rel) {b n : Nat} (ok : Ok C b) (hn : 2 ≤ n) {inf q0 q1 q2 q3 : X} {gi g0 g1 g2 g3 : G} (hi : Rel inf gi) (h0 : Low q0 g0)
    (h1 : Rel q1 g1) (h2 : Rel q2 g2) (h3 : Rel q3 g3) {u0 u1 u2 u3 : Limbs C} {E0 E1 E2 E3 : Nat} (r0 : Rep b n (norm b u0) E0) (r1 : Rep b n (norm b u1) E1)
    (r2 : Rep b n (norm b u2) E2) (r3 : Rep b n (norm b u3) E3) (b0 : E0 + 1 < 2 ^ (b * n)) (b1 : E1 < 2 ^ (b * n)) (b2 : E2 < 2 ^ (b * n)) (b3 : E3 < 2 ^ (b * n)) :
    ∃ r, mul4Win o b n inf q0 q1 q2 q3 u0 u1 u2 u3 = some r ∧ Rel r (E0 • g0 + E1 • g1 + E2 • g2 + E3 • g3) := by
  have hb2 : b + 2 ≤ C := by have := ok.hC; omega
  have cast : ∀ {E : Nat}, E < 2 ^ (b * n) → (E : Int) < 2 ^ (b * n) := fun h => by exact_mod_cast h
  have hpar := r0.parity ok hn
  -- the odd scalar
  have hinc := (norm_inc_rep ok (by omega) r0 (by omega) (cast (by omega)) (1 - parity (norm b u0)) (by rw [hpar, abs_lt]; constructor <;> omega)).1
  set t0 := norm b (inc b (norm b u0) (1 - parity (norm b u0))) with ht0
  have hT0 : (E0 : Int) + (1 - parity (norm b u0)) = ((2 * (E0 / 2) + 1 : Nat) : Int) := by rw [hpar]; omega
  rw [hT0] at hinc
  set T0 := 2 * (E0 / 2) + 1 with hTd
  have hTl : T0 < 2 ^ (b * n) := by omega
  -- the number of bits
  have dz : Digits b (zero C n) := digits_zero b n
  have d0 := hinc.digits (by omega) (cast hTl)
  have d1 := r1.digits (by omega) (cast b1)
  have d2 := r2.digits (by omega) (cast b2)
  have d3 := r3.digits (by omega) (cast b3)
  have lz : (zero C n).length = n := by simp [zero]
  obtain ⟨o1, l1, _, v1⟩ := or_digits hb2 _ _ dz d0 (by rw [lz, hinc.len])
  obtain ⟨o2, l2, w2, v2⟩ := or_digits hb2 _ _ o1 d1 (by rw [l1, lz, r1.len])
  obtain ⟨o3, l3, w3, v3⟩ := or_digits hb2 _ _ o2 d2 (by rw [l2, l1, lz, r2.len])
  obtain ⟨o4, l4, w4, v4⟩ := or_digits hb2 _ _ o3 d3 (by rw [l3, l2, l1, lz, r3.len])
  set mt := Big.or (Big.or (Big.or (Big.or (zero C n) t0) (norm b u1)) (norm b u2)) (norm b u3) with hmt
  have lm : mt.length = n := by rw [l4, l3, l2, l1, lz]
  have hmr := Digits.norm_rep ok (by intro e; rw [e] at lm; simp at lm; omega) o4
  rw [lm] at hmr
  have hmu := (Digits.bounds o4).2
  have hmn := (Digits.bounds o4).1
  rw [lm] at hmu
  obtain ⟨n1, n2, _⟩ := nbits_spec ok mt hmr hmn
  rw [hinc.val] at v1
  rw [r1.val] at v2
  rw [r2.val] at v3
  rw [r3.val] at v4
  have hN : nbits b mt ≤ b * n := by
    by_contra hc
    obtain ⟨_, n3⟩ := n2 (by omega)
    have : (2 : Int) ^ (b * n) ≤ 2 ^ (nbits b mt - 1) := pow_le_pow_right₀ (by norm_num) (by omega)
    omega
  have hpos : 0 < nbits b mt := (n2 (by omega)).1
  have hct : ¬ (1 + n * b < 1 + nbits b mt) := by rw [Nat.mul_comm n b]; omega
  have bd : ∀ {E : Nat}, (E : Int) ≤ limbsVal b mt → E < 2 ^ nbits b mt := by
    intro E hE
    have : (E : Int) < 2 ^ nbits b mt := by omega
    exact_mod_cast this
  have t0b := bd (E := T0) (by omega)
  have t1b := bd (E := E1) (by omega)
  have t2b := bd (E := E2) (by omega)
  have t3b := bd (E := E3) (by omega)
  obtain ⟨c1, c2, c3⟩ := recode4_spec ok hn g0 g1 g2 g3 (nbits b mt) t0 _ _ _ T0 E1 E2 E3 hinc r1 r2 r3 (lt_of_lt_of_le t0b (Nat.pow_le_pow_right (by norm_num) (by omega)))
    t1b.le t2b.le t3b.le (cast b1) (cast b2) (cast b3)
  have hW := table4_spec h h0 h1 h2 h3
  rw [show 2 * (T0 / 2) + 1 = T0 by omega] at c3
  set L := recode4 b (signs b (nbits b mt) t0) (norm b u1) (norm b u2) (norm b u3) with hL
  obtain ⟨d, ds, hds⟩ : ∃ d ds, L.reverse = d :: ds := by
    cases hr : L.reverse with
    | nil => exact absurd (List.reverse_eq_nil_iff.mp hr) c2
    | cons d ds => exact ⟨d, ds, rfl⟩
  have hLe : L = ds.reverse ++ [d] := by
    have := congrArg List.reverse hds
    simpa using this
  have hodd : ∀ x ∈ d :: ds, x % 2 = 1 ∧ |x| < 16 := fun x hx => c1 x (by rw [← hds] at hx; exact List.mem_reverse.mp hx)
  have hP := selector_spec h hW d (hodd d (by simp)).1 (hodd d (by simp)).2 hi
  have hfold : ∀ (l : List Int), (∀ x ∈ l, x % 2 = 1 ∧ |x| < 16) → ∀ (s : X × X) (g q : G), Rel s.1 g → Rel s.2 q →
      ∃ q', Rel (l.foldl (fun (s : X × X) w => (o.add (o.dbl s.1) (selector o s.2 (table4 o q0 q1 q2 q3) (BitVec.ofInt 32 w)),
        selector o s.2 (table4 o q0 q1 q2 q3) (BitVec.ofInt 32 w))) s).1 (l.foldl (fun a d => (2 : Int) • a + pick4 g0 g1 g2 g3 d) g) ∧
      Rel (l.foldl (fun (s : X × X) w => (o.add (o.dbl s.1) (selector o s.2 (table4 o q0 q1 q2 q3) (BitVec.ofInt 32 w)),
        selector o s.2 (table4 o q0 q1 q2 q3) (BitVec.ofInt 32 w))) s).2 q' := by
    intro l
    induction l with
    | nil => intro _ s g q k1 k2; exact ⟨q, k1, k2⟩
    | cons x l ih =>
      intro hx s g q k1 k2
      simp only [List.foldl_cons]
      obtain ⟨p1, p2⟩ := hx x (by simp)
      have hsel := selector_spec h hW x p1 p2 k2
      refine ih (fun y hy => hx y (by simp [hy])) _ _ _ ?_ hsel
      have := h.add (h.low (h.dbl k1)) hsel
      rw [← two_zsmul] at this
      exact h.low this
  obtain ⟨q', w1, _⟩ := hfold ds (fun x hx => hodd x (by simp [hx]))
    (selector o inf (table4 o q0 q1 q2 q3) (BitVec.ofInt 32 d), (table4 o q0 q1 q2 q3).getD 3 inf) _ _ hP (h.low (hW 3 (by norm_num) inf))
  have hv := val4_horner (pick4 g0 g1 g2 g3) ds d
  rw [← hLe, c3] at hv
  rw [show (if d < 0 then -sub4 g0 g1 g2 g3 ((d.natAbs - 1) / 2) else sub4 g0 g1 g2 g3 ((d.natAbs - 1) / 2)) = pick4 g0 g1 g2 g3 d from rfl, hv] at w1
  have hsub := h.low (h.sub w1 h0)
  have hfin : mul4Win o b n inf q0 q1 q2 q3 u0 u1 u2 u3 = some (o.cmove
      (ds.foldl (fun (s : X × X) w => (o.add (o.dbl s.1) (selector o s.2 (table4 o q0 q1 q2 q3) (BitVec.ofInt 32 w)),
        selector o s.2 (table4 o q0 q1 q2 q3) (BitVec.ofInt 32 w))) (selector o inf (table4 o q0 q1 q2 q3) (BitVec.ofInt 32 d), (table4 o q0 q1 q2 q3).getD 3 inf)).1
      (o.sub (ds.foldl (fun (s : X × X) w => (o.add (o.dbl s.1) (selector o s.2 (table4 o q0 q1 q2 q3) (BitVec.ofInt 32 w)),
        selector o s.2 (table4 o q0 q1 q2 q3) (BitVec.ofInt 32 w))) (selector o inf (table4 o q0 q1 q2 q3) (BitVec.ofInt 32 d), (table4 o q0 q1 q2 q3).getD 3 inf)).1 q0)
      (1 - parity (norm b u0)).toNat) := by
    unfold mul4Win
    simp only
    rw [← ht0, ← hmt, if_neg hct, Nat.add_sub_cancel_left, ← hL, hds]
  rw [hfin]
  refine ⟨_, rfl, ?_⟩
  rw [hpar]
  rcases Nat.mod_two_eq_zero_or_one E0 with hz | hz
  · rw [show ((1 : Int) - (E0 : Int) % 2).toNat = 1 by omega, h.cmove1 w1 hsub]
    have : T0 • g0 + E1 • g1 + E2 • g2 + E3 • g3 - g0 = E0 • g0 + E1 • g1 + E2 • g2 + E3 • g3 := by
      rw [show T0 = E0 + 1 by omega, add_nsmul, one_nsmul]; abel
    rwa [this] at hsub
  · rw [show ((1 : Int) - (E0 : Int) % 2).toNat = 0 by omega, h.cmove0 w1 hsub]
    rwa [show T0 = E0 by omega] at w1

end Verif.Ecp
