import Verif.Ecp.Window
import Verif.Big.Small2
import Verif.Big.Div
import Verif.Fp.Lazy
import Mathlib.Tactic.Abel
import Mathlib.Tactic.Module
import Mathlib.Algebra.Module.Basic
/- The window algorithms compute multiples in the group the points denote. -/
namespace Verif.Ecp
open Verif.Big Spec

variable {C : Nat} {X G : Type} [AddCommGroup G]

/-- the point operations implement a group: `Rel x g` says that `x` denotes `g`, `Low x g` moreover that the
coordinates of `x` are reduced enough for `neg` -/
structure PtSound (o : PtOps X) (Low Rel : X → G → Prop) : Prop where
  low : ∀ {x g}, Low x g → Rel x g
  dbl : ∀ {x g}, Rel x g → Low (o.dbl x) (g + g)
  add : ∀ {x y g h}, Rel x g → Rel y h → Low (o.add x y) (g + h)
  neg : ∀ {x g}, Low x g → Rel (o.neg x) (-g)
  cmove0 : ∀ {x y g h}, Rel x g → Rel y h → o.cmove x y 0 = x
  cmove1 : ∀ {x y g h}, Rel x g → Rel y h → o.cmove x y 1 = y

variable {o : PtOps X} {Low Rel : X → G → Prop}

theorem PtSound.sub (h : PtSound o Low Rel) {x y : X} {g k : G} (hx : Rel x g) (hy : Low y k) : Low (o.sub x y) (g - k) := by
  rw [sub_eq_add_neg]; exact h.add hx (h.neg hy)

/-! ### exponents -/

theorem norm_inc_rep {b n : Nat} (ok : Ok C b) (hn : 0 < n) {w : Limbs C} {V : Int} (h : Rep b n w V) (h0 : 0 ≤ V)
    (hV : V < 2 ^ (b * n)) (x : Int) (hx : |x| < 2 ^ 5) : Rep b n (norm b (inc b w x)) (V + x) ∧ Rep b n (norm b (dec b w x)) (V - x) := by
  have hb := ok.hb; have hC := ok.hC
  have hne := h.ne_nil hn
  have hd := h.digits h0 hV
  have hr := Digits.norm_rep ok hne hd
  rw [h.len, h.val] at hr
  have e0 : Big.norm b w = w := normal_unique _ _ (by rw [hr.len, h.len]) hr.low h.low (by rw [hr.val, h.val])
  have h9 : (2 : Int) ^ 9 ≤ 2 ^ b := pow_le_pow_right₀ (by norm_num) hb
  have hpw : (2 : Int) ^ (b + 1) ≤ 2 ^ (C - 2) := pow_le_pow_right₀ (by norm_num) (by omega)
  have hpw2 : (2 : Int) ^ (C - 2) ≤ 2 ^ (C - 1) := pow_le_pow_right₀ (by norm_num) (by omega)
  have hpb := two_pow_pos' b
  rw [pow_succ] at hpw
  have hx' := abs_lt.mp hx
  norm_num at hx' h9
  have ha := at'_digits hd 0
  have hv := inc_val ok hn w hr x (by rw [abs_lt]; constructor <;> omega) (by rw [e0, abs_lt]; constructor <;> omega)
  have hofi : (BitVec.ofInt C x).toInt = x := toInt_ofInt_of (by omega) (by omega) (by omega)
  have key : ∀ z : BitVec C, |z.toInt| < 2 ^ (C - 2) → ∀ (l : Limbs C), l = w.set 0 z → LimbsWithin (2 ^ (C - 2)) l := by
    rintro z hz l rfl y hy
    rcases List.mem_or_eq_of_mem_set hy with hy | rfl
    · have := hd y hy; constructor <;> omega
    · exact abs_le.mp (le_of_lt hz)
  constructor
  · have hl : LimbsWithin (2 ^ (C - 2)) (inc b w x) := by
      refine key (at' w 0 + BitVec.ofInt C x) ?_ _ (by unfold inc; simp only [e0])
      rw [toInt_add_of _ _ (by omega) (by rw [hofi]; omega) (by rw [hofi]; omega), hofi, abs_lt]; constructor <;> omega
    have hlen : (inc b w x).length = n := by unfold inc; simp only [e0]; simp [h.len]
    have := norm_rep ok (inc b w x) (by intro e; rw [e] at hlen; simp at hlen; omega) hl
    rwa [hlen, hv.1] at this
  · have hl : LimbsWithin (2 ^ (C - 2)) (dec b w x) := by
      refine key (at' w 0 - BitVec.ofInt C x) ?_ _ (by unfold dec; simp only [e0])
      rw [toInt_sub_of _ _ (by omega) (by rw [hofi]; omega) (by rw [hofi]; omega), hofi, abs_lt]; constructor <;> omega
    have hlen : (dec b w x).length = n := by unfold dec; simp only [e0]; simp [h.len]
    have := norm_rep ok (dec b w x) (by intro e; rw [e] at hlen; simp at hlen; omega) hl
    rwa [hlen, hv.2] at this

theorem rep_norm {b n : Nat} (ok : Ok C b) (hn : 0 < n) {w : Limbs C} {V : Int} (h : Rep b n w V) (h0 : 0 ≤ V)
    (hV : V < 2 ^ (b * n)) : norm b w = w := by
  have hr := Digits.norm_rep ok (h.ne_nil hn) (h.digits h0 hV)
  rw [h.len, h.val] at hr
  exact normal_unique _ _ (by rw [hr.len, h.len]) hr.low h.low (by rw [hr.val, h.val])

theorem makeOdd_spec {b n : Nat} (ok : Ok C b) (hn : 2 ≤ n) {e : Limbs C} {E : Nat} (h : Rep b n e E) (hE : (E : Int) + 2 < 2 ^ (b * n)) :
    Rep b n (makeOdd b e).1 ((E + 1 + E % 2 : Nat) : Int) ∧ (makeOdd b e).2 = 1 - E % 2 := by
  have h1 := (norm_inc_rep ok (by omega) h (by omega) (by omega) 1 (by norm_num)).1
  have h2 := (norm_inc_rep ok (by omega) h1 (by omega) (by omega) 1 (by norm_num)).1
  have hl : (norm b (inc b e 1)).length = (norm b (inc b (norm b (inc b e 1)) 1)).length := by rw [h1.len, h2.len]
  unfold makeOdd
  simp only
  rw [h.parity ok hn, h1.parity ok hn]
  rcases Nat.mod_two_eq_zero_or_one E with hz | hz
  · rw [show (E : Int) % 2 = 0 by omega, show ((E : Int) + 1) % 2 = 1 by omega, cmove_zero _ _ hl, hz]
    exact ⟨by simpa using h1, rfl⟩
  · rw [show (E : Int) % 2 = 1 by omega, show ((E : Int) + 1) % 2 = 0 by omega, cmove_one _ _ hl, hz]
    refine ⟨?_, rfl⟩
    have : ((E + 1 + 1 : Nat) : Int) = (E : Int) + 1 + 1 := by push_cast; ring
    rw [this]; exact h2

theorem recodeStep_spec {b n win : Nat} (ok : Ok C b) (hn : 2 ≤ n) (hw : win = 4 ∨ win = 2) {t : Limbs C} {T : Nat} (h : Rep b n t T)
    (hT : (T : Int) + 2 ^ win < 2 ^ (b * n)) :
    (recodeStep b win t).1 = ((T % 2 ^ (win + 1) : Nat) : Int) - 2 ^ win ∧
      Rep b n (recodeStep b win t).2 ((2 * (T / 2 ^ (win + 1)) + 1 : Nat) : Int) := by
  have hb := ok.hb
  have hw0 : (0 : Int) < 2 ^ win := by positivity
  have hnorm := rep_norm ok (by omega) h (by omega) (by omega)
  have hl := lastbits_spec ok (by omega : win + 1 ≤ b) (w := t) (V := T) (by rw [hnorm]; exact h)
  have e1 : (recodeStep b win t).1 = ((T % 2 ^ (win + 1) : Nat) : Int) - 2 ^ win := by
    unfold recodeStep; simp only; rw [hl]; push_cast; rfl
  refine ⟨e1, ?_⟩
  have e2 : (recodeStep b win t).2 = fshr b win (norm b (dec b t (recodeStep b win t).1)) := rfl
  rw [e2, e1]
  have hm : T % 2 ^ (win + 1) < 2 ^ (win + 1) := Nat.mod_lt _ (by positivity)
  have hdm := Nat.div_add_mod T (2 ^ (win + 1))
  have hx : |((T % 2 ^ (win + 1) : Nat) : Int) - 2 ^ win| < 2 ^ 5 := by
    rcases hw with rfl | rfl <;> (norm_num at hm ⊢; rw [abs_lt]; constructor <;> omega)
  have hd := (norm_inc_rep ok (by omega) h (by omega) (by omega) _ hx).2
  have hval : (T : Int) - (((T % 2 ^ (win + 1) : Nat) : Int) - 2 ^ win) = ((2 ^ win * (2 * (T / 2 ^ (win + 1)) + 1) : Nat) : Int) := by
    have : ((2 ^ (win + 1) * (T / 2 ^ (win + 1)) + T % 2 ^ (win + 1) : Nat) : Int) = T := by rw [hdm]
    push_cast at this ⊢
    rw [pow_succ] at this ⊢
    linear_combination -this
  rw [hval] at hd
  have hlow : Normal b (norm b (dec b t (((T % 2 ^ (win + 1) : Nat) : Int) - 2 ^ win))) := hd.low
  obtain ⟨f1, f2⟩ := fshr_spec ok (by omega : win ≤ b) _ hlow
  refine ⟨?_, f1, ?_⟩
  · rw [← hd.len]
    clear * -
    generalize norm b (dec b t (((T % 2 ^ (win + 1) : Nat) : Int) - 2 ^ win)) = w
    exact fshr_length b win w
  · rw [f2, hd.val]
    push_cast
    rw [Int.mul_ediv_cancel_left _ (by positivity)]

/-- value of signed digits, least significant first -/
def sval (B : Int) : List Int → Int
  | [] => 0
  | d :: ds => d + B * sval B ds

theorem recode_spec {b n win : Nat} (ok : Ok C b) (hn : 2 ≤ n) (hw : win = 4 ∨ win = 2) (k : Nat) (t : Limbs C) (T : Nat) (h : Rep b n t T)
    (ho : T % 2 = 1) (hT : (T : Int) + 2 ^ win < 2 ^ (b * n)) (hk : T < 2 ^ (win * k + 1)) :
    (recode b win k t).1.length = k ∧ (∀ d ∈ (recode b win k t).1, d % 2 = 1 ∧ |d| < 2 ^ win) ∧
      Rep b n (recode b win k t).2 ((1 : Nat) : Int) ∧ sval (2 ^ win) (recode b win k t).1 + 2 ^ (win * k) = T := by
  induction k generalizing t T with
  | zero =>
    have : T = 1 := by simp at hk; omega
    subst this
    simp [recode, sval]; exact h
  | succ k ih =>
    obtain ⟨s1, s2⟩ := recodeStep_spec ok hn hw h hT
    set T' := 2 * (T / 2 ^ (win + 1)) + 1 with hT'
    have hdm := Nat.div_add_mod T (2 ^ (win + 1))
    have hm : T % 2 ^ (win + 1) < 2 ^ (win + 1) := Nat.mod_lt _ (by positivity)
    have hodd : T % 2 ^ (win + 1) % 2 = 1 := by
      rw [Nat.mod_mod_of_dvd _ (by exact dvd_pow_self 2 (by omega))]; exact ho
    have hTle : T' ≤ T := by
      rcases hw with rfl | rfl <;> (norm_num at hT' hm ⊢; omega)
    have hTi : (T' : Int) ≤ T := by exact_mod_cast hTle
    obtain ⟨i1, i2, i3, i4⟩ := ih _ _ s2 (by omega) (by omega) (by
      rw [hT']
      have : T / 2 ^ (win + 1) < 2 ^ (win * k) := by
        rw [Nat.div_lt_iff_lt_mul (by positivity), ← pow_add]
        rw [show win * k + (win + 1) = win * (k + 1) + 1 by ring]; exact hk
      rw [pow_succ 2 (win * k)]; omega)
    have hrec : recode b win (k + 1) t = ((recodeStep b win t).1 :: (recode b win k (recodeStep b win t).2).1, (recode b win k (recodeStep b win t).2).2) := rfl
    rw [hrec]
    refine ⟨by simp [i1], ?_, i3, ?_⟩
    · intro d hd
      rcases List.mem_cons.mp hd with rfl | hd
      · rw [s1]
        rcases hw with rfl | rfl <;> (norm_num at hm hodd ⊢; refine ⟨by omega, ?_⟩; rw [abs_lt]; constructor <;> omega)
      · exact i2 d hd
    · simp only [sval]
      rw [s1]
      have e1 : ((2 ^ (win + 1) * (T / 2 ^ (win + 1)) + T % 2 ^ (win + 1) : Nat) : Int) = T := by rw [hdm]
      have e2 : (T' : Int) = 2 * ((T / 2 ^ (win + 1) : Nat) : Int) + 1 := by rw [hT']; push_cast; ring
      rw [e2] at i4
      push_cast at e1 i4 ⊢
      rw [show win * (k + 1) = win * k + win by ring, pow_add 2 (win * k) win]
      generalize (T : Int) / 2 ^ (win + 1) = q at *
      generalize (T : Int) % 2 ^ (win + 1) = r at *
      generalize sval (2 ^ win) (recode b win k (recodeStep b win t).2).1 = sv at *
      linear_combination (2 : Int) ^ win * i4 + e1

/-! ### the table lookup -/

theorem teq_spec : ∀ i < 8, ∀ j < 8, teq (BitVec.ofNat 32 i) (BitVec.ofNat 32 j) = if i = j then 1 else 0 := by decide

theorem selIndex_spec (d : Int) (ho : d % 2 = 1) (hd : |d| < 16) :
    selIndex (BitVec.ofInt 32 d) = (BitVec.ofNat 32 ((d.natAbs - 1) / 2), if d < 0 then 1 else 0) := by
  obtain ⟨h1, h2⟩ := abs_lt.mp hd
  have h1' : -15 ≤ d := by omega
  interval_cases d <;> first | omega | decide

theorem select_fold (h : PtSound o Low Rel) {W : List X} {g : Nat → G} (hW : ∀ i < 8, ∀ x, Low (W.getD i x) (g i)) (j : Nat) (hj : j < 8) (g0 : G)
    (s : X) (hs : Rel s g0) (m : Nat) (hm : m ≤ 8) :
    if j < m then Low ((List.range m).foldl (fun s i => o.cmove s (W.getD i s) (teq (BitVec.ofNat 32 j) (BitVec.ofNat 32 i))) s) (g j)
    else Rel ((List.range m).foldl (fun s i => o.cmove s (W.getD i s) (teq (BitVec.ofNat 32 j) (BitVec.ofNat 32 i))) s) g0 := by
  induction m with
  | zero => simpa using hs
  | succ m ih =>
    rw [List.range_succ, List.foldl_append]
    simp only [List.foldl_cons, List.foldl_nil]
    have ih := ih (by omega)
    rw [teq_spec j hj m (by omega)]
    by_cases hjm : j = m
    · subst hjm
      rw [if_neg (by omega)] at ih
      rw [if_pos rfl, if_pos (by omega), h.cmove1 ih (h.low (hW j hj _))]
      exact hW j hj _
    · rw [if_neg hjm]
      by_cases hlt : j < m
      · rw [if_pos hlt] at ih
        rw [if_pos (by omega), h.cmove0 (h.low ih) (h.low (hW m (by omega) _))]
        exact ih
      · rw [if_neg hlt] at ih
        rw [if_neg (by omega), h.cmove0 ih (h.low (hW m (by omega) _))]
        exact ih

/-- `selector` picks the table entry of an odd signed digit -/
theorem selector_spec (h : PtSound o Low Rel) {W : List X} {g : Nat → G} (hW : ∀ i < 8, ∀ x, Low (W.getD i x) (g i)) (d : Int) (ho : d % 2 = 1)
    (hd : |d| < 16) {s : X} {g0 : G} (hs : Rel s g0) :
    Rel (selector o s W (BitVec.ofInt 32 d)) (if d < 0 then -g ((d.natAbs - 1) / 2) else g ((d.natAbs - 1) / 2)) := by
  have hj : (d.natAbs - 1) / 2 < 8 := by have := abs_lt.mp hd; omega
  have hf := select_fold h hW _ hj g0 s hs 8 le_rfl
  rw [if_pos hj] at hf
  unfold selector
  simp only [selIndex_spec d ho hd]
  by_cases hneg : d < 0
  · simp only [hneg, if_true]; rw [h.cmove1 (h.low hf) (h.neg hf)]; exact h.neg hf
  · simp only [hneg, if_false]; rw [h.cmove0 (h.low hf) (h.neg hf)]; exact h.low hf

/-! ### the fixed-window multiplication -/

theorem oddTable_spec (h : PtSound o Low Rel) {P Q : X} {g : G} (hP : Low P g) (hQ : Rel Q (g + g)) :
    (oddTable o P Q).length = 8 ∧ ∀ i < 8, ∀ x, Low ((oddTable o P Q).getD i x) ((2 * i + 1 : Int) • g) := by
  have key : ∀ m, m ≤ 7 → ((List.range m).foldl (fun W i => W ++ [o.add (W.getD i P) Q]) [P]).length = m + 1 ∧
      ∀ i < m + 1, ∀ x, Low (((List.range m).foldl (fun W i => W ++ [o.add (W.getD i P) Q]) [P]).getD i x) ((2 * i + 1 : Int) • g) := by
    intro m
    induction m with
    | zero =>
      intro _
      refine ⟨rfl, ?_⟩
      intro i hi x
      have : i = 0 := by omega
      subst this
      simpa using hP
    | succ m ih =>
      intro hm
      obtain ⟨l, r⟩ := ih (by omega)
      rw [List.range_succ, List.foldl_append]
      simp only [List.foldl_cons, List.foldl_nil]
      generalize (List.range m).foldl (fun W i => W ++ [o.add (W.getD i P) Q]) [P] = W at l r ⊢
      refine ⟨by simp [l], ?_⟩
      intro i hi x
      rcases Nat.lt_or_ge i (m + 1) with hlt | hge
      · rw [List.getD_append _ _ _ _ (by omega)]; exact r i hlt x
      · have : i = m + 1 := by omega
        subst this
        rw [List.getD_append_right _ _ _ _ (by omega), l]
        simp only [Nat.sub_self, List.getD_cons_zero]
        have := h.add (h.low (r m (by omega) P)) hQ
        have e : (2 * (m : Int) + 1) • g + (g + g) = (2 * ((m + 1 : Nat) : Int) + 1) • g := by push_cast; module
        rwa [e] at this
  exact key 7 le_rfl

theorem digit_smul (g : G) (d : Int) (ho : d % 2 = 1) :
    (if d < 0 then -((2 * ((d.natAbs - 1) / 2 : Nat) + 1 : Int) • g) else (2 * ((d.natAbs - 1) / 2 : Nat) + 1 : Int) • g) = d • g := by
  by_cases hd : d < 0
  · rw [if_pos hd, ← neg_smul]; congr 1; omega
  · rw [if_neg hd]; congr 1; omega

/-- main loop: `k` doublings and one addition per digit -/
theorem window_fold (h : PtSound o Low Rel) {W : List X} {gt : Nat → G} (hW : ∀ i < 8, ∀ x, Low (W.getD i x) (gt i)) {D : X → X} {B : Int}
    (hD : ∀ {x g}, Low x g → Low (D x) (B • g)) (val : Int → G)
    (hv : ∀ d : Int, d % 2 = 1 → |d| < 16 → (if d < 0 then -gt ((d.natAbs - 1) / 2) else gt ((d.natAbs - 1) / 2)) = val d)
    (ds : List Int) (hds : ∀ d ∈ ds, d % 2 = 1 ∧ |d| < 16) :
    ∀ (s : X × X) (g q : G), Low s.1 g → Rel s.2 q →
      ∃ q', Low (ds.foldl (fun (s : X × X) w => (o.add (D s.1) (selector o s.2 W (BitVec.ofInt 32 w)), selector o s.2 W (BitVec.ofInt 32 w))) s).1
        (ds.foldl (fun a d => B • a + val d) g) ∧
      Rel (ds.foldl (fun (s : X × X) w => (o.add (D s.1) (selector o s.2 W (BitVec.ofInt 32 w)), selector o s.2 W (BitVec.ofInt 32 w))) s).2 q' := by
  induction ds with
  | nil => intro s g q h1 h2; exact ⟨q, h1, h2⟩
  | cons d ds ih =>
    intro s g q h1 h2
    simp only [List.foldl_cons]
    obtain ⟨o1, o2⟩ := hds d (by simp)
    have hsel := selector_spec h hW d o1 o2 h2
    rw [hv d o1 o2] at hsel
    exact ih (fun x hx => hds x (by simp [hx])) _ _ _ (h.add (h.low (hD h1)) hsel) hsel

theorem horner_sval (g : G) (B : Int) (ds : List Int) (c : Int) :
    ds.reverse.foldl (fun a d => B • a + d • g) (c • g) = (sval B ds + B ^ ds.length * c) • g := by
  induction ds generalizing c with
  | nil => simp [sval]
  | cons d ds ih =>
    simp only [List.reverse_cons, List.foldl_append, List.foldl_cons, List.foldl_nil, ih, sval, List.length_cons]
    rw [smul_smul, ← add_smul]; congr 1; ring

/-- a full-length exponent overflows the digit array -/
theorem mulWin_panics (o : PtOps X) {b n : Nat} (ok : Ok C b) (hn : 2 ≤ n) (P : X) {e : Limbs C} {E : Nat} (he : Rep b n e E)
    (hE : (E : Int) + 2 < 2 ^ (b * n)) (hL : 2 ^ (b * n - 1) ≤ E) : mulWin o b n P e = none := by
  obtain ⟨m1, _⟩ := makeOdd_spec ok hn he hE
  have hnorm := rep_norm ok (by omega) m1 (by omega) (by push_cast; omega)
  obtain ⟨b1, _, _⟩ := nbits_spec ok (makeOdd b e).1 (V := (E + 1 + E % 2 : Nat)) (by rw [hnorm]; exact m1) (by omega)
  have hN : b * n ≤ nbits b (makeOdd b e).1 := by
    by_contra hc
    have h1 : (2 : Int) ^ nbits b (makeOdd b e).1 ≤ 2 ^ (b * n - 1) := pow_le_pow_right₀ (by norm_num) (by omega)
    have h2 : (2 : Int) ^ (b * n - 1) ≤ E := by exact_mod_cast hL
    omega
  have hct : 1 + (n * b + 3) / 4 ≤ 1 + (nbits b (makeOdd b e).1 + 3) / 4 := by rw [Nat.mul_comm n b]; omega
  simp only [mulWin, hct, if_true]

/-- `mulWin` computes `E * P`, for exponents with room for two more units and four more bits -/
theorem mulWin_spec (h : PtSound o Low Rel) {b n : Nat} (ok : Ok C b) (hn : 2 ≤ n) {P : X} {g : G} (hP : Low P g) {e : Limbs C} {E : Nat}
    (he : Rep b n e E) (hE : E + 2 < 2 ^ (b * n - 4)) (hbn : 8 ≤ b * n) : ∃ r, mulWin o b n P e = some r ∧ Low r ((E : Int) • g) := by
  have hbig : (2 : Nat) ^ (b * n - 4) * 2 ^ 4 = 2 ^ (b * n) := by rw [← pow_add]; congr 1; omega
  have hEi : (E : Int) + 2 + 2 ^ 4 < 2 ^ (b * n) := by
    have : E + 2 + 2 ^ 4 < 2 ^ (b * n) := by rw [← hbig]; omega
    exact_mod_cast this
  obtain ⟨m1, m2⟩ := makeOdd_spec ok hn he (by norm_num at hEi; omega)
  set T := E + 1 + E % 2 with hT
  have hTo : T % 2 = 1 := by omega
  have hTl : T < 2 ^ (b * n - 4) := by omega
  have hTi : (T : Int) + 2 ^ 4 < 2 ^ (b * n) := by rw [hT]; push_cast; norm_num at hEi ⊢; omega
  have hnorm := rep_norm ok (by omega) m1 (by omega) (by norm_num at hTi; omega)
  obtain ⟨b1, b2, _⟩ := nbits_spec ok (makeOdd b e).1 (V := T) (by rw [hnorm]; exact m1) (by omega)
  set nb := 1 + (nbits b (makeOdd b e).1 + 3) / 4 with hnb
  have hlen : nbits b (makeOdd b e).1 ≤ b * n - 4 := by
    by_contra hc
    obtain ⟨_, b3⟩ := b2 (by omega)
    have h1 : (2 : Int) ^ (b * n - 4) ≤ 2 ^ (nbits b (makeOdd b e).1 - 1) := pow_le_pow_right₀ (by norm_num) (by omega)
    have h2 : (T : Int) < 2 ^ (b * n - 4) := by exact_mod_cast hTl
    omega
  have hct : ¬ (1 + (n * b + 3) / 4 ≤ nb) := by
    rw [hnb, Nat.mul_comm n b]; omega
  have hTk : T < 2 ^ (4 * nb + 1) := by
    have h1 : T < 2 ^ nbits b (makeOdd b e).1 := by exact_mod_cast b1
    exact lt_of_lt_of_le h1 (Nat.pow_le_pow_right (by norm_num) (by omega))
  obtain ⟨r1, r2, r3, r4⟩ := recode_spec ok hn (Or.inl rfl) nb _ T m1 hTo hTi hTk
  have hQ := h.dbl (h.low hP)
  obtain ⟨_, hW⟩ := oddTable_spec h hP (h.low hQ)
  -- correction
  have hcorr : Low (o.cmove (o.dbl P) P (makeOdd b e).2) ((T - E : Int) • g) := by
    rw [m2]
    rcases Nat.mod_two_eq_zero_or_one E with hz | hz
    · rw [hz]
      have : ((T : Int) - E) = 1 := by rw [hT, hz]; push_cast; ring
      rw [this, one_smul, h.cmove1 (h.low hQ) (h.low hP)]; exact hP
    · rw [hz]
      have : ((T : Int) - E) = 2 := by rw [hT, hz]; push_cast; ring
      rw [this, two_smul, h.cmove0 (h.low hQ) (h.low hP)]; exact hQ
  have hlast : (lastbits b (recode b 4 nb (makeOdd b e).1).2 5).toNat = 1 := by
    have hb := ok.hb
    have hp0 : (1 : Int) < 2 ^ (b * n) := by norm_num at hTi; omega
    have hno := rep_norm ok (by omega) r3 (by norm_num) (by simpa using hp0)
    have := lastbits_spec ok (by omega : 5 ≤ b) (w := (recode b 4 nb (makeOdd b e).1).2) (V := ((1 : Nat) : Int)) (by rw [hno]; exact r3)
    norm_num at this
    have h1 := toNat_of_toInt_nonneg _ (by rw [this]; norm_num : 0 ≤ (lastbits b (recode b 4 nb (makeOdd b e).1).2 5).toInt)
    omega
  have hstart : Low ((oddTable o P (o.dbl P)).getD ((1 - 1) / 2) P) ((1 : Int) • g) := by
    have := hW 0 (by norm_num) P
    simpa using this
  have hD : ∀ {x : X} {k : G}, Low x k → Low (o.dbl (o.dbl (o.dbl (o.dbl x)))) ((2 ^ 4 : Int) • k) := by
    intro x k hx
    have := h.dbl (h.low (h.dbl (h.low (h.dbl (h.low (h.dbl (h.low hx)))))))
    have e : (k + k + (k + k) + (k + k + (k + k)) + (k + k + (k + k) + (k + k + (k + k)))) = (2 ^ 4 : Int) • k := by module
    rwa [e] at this
  obtain ⟨q', w1, _⟩ := window_fold h hW hD (fun d => d • g) (fun d o1 o2 => digit_smul g d o1) (recode b 4 nb (makeOdd b e).1).1.reverse
    (fun d hd => by have := r2 d (List.mem_reverse.mp hd); norm_num at this ⊢; exact this) (_, _) _ _ hstart (h.low hcorr)
  have fin := h.sub (h.low w1) hcorr
  rw [horner_sval, r1, ← sub_smul] at fin
  have e2 : sval (2 ^ 4) (recode b 4 nb (makeOdd b e).1).1 + (2 ^ 4) ^ nb * 1 - ((T : Int) - E) = E := by
    rw [← pow_mul, mul_one, r4]; ring
  rw [e2] at fin
  refine ⟨_, ?_, fin⟩
  unfold mulWin
  simp only
  rw [if_neg hct, hlast]
  rfl

/-! ### double multiplication -/

theorem recode2_eq (b : Nat) : ∀ (k : Nat) (te tf : Limbs C),
    (recode2 b k te tf).1 = List.zipWith (fun x y => 4 * x + y) (recode b 2 k te).1 (recode b 2 k tf).1 ∧
      (recode2 b k te tf).2 = ((recode b 2 k te).2, (recode b 2 k tf).2)
  | 0, _, _ => ⟨rfl, rfl⟩
  | k + 1, te, tf => by
    obtain ⟨h1, h2⟩ := recode2_eq b k (recodeStep b 2 te).2 (recodeStep b 2 tf).2
    simp only [recode2, recode, List.zipWith_cons_cons]
    exact ⟨by rw [h1], h2⟩

/-- the combination a joint digit stands for: `4 a + b ↦ a P + b Q` with `a, b ∈ {±1, ±3}` -/
def joint (g k : G) (d : Int) : G :=
  let b := d % 8 - 4
  ((d - b) / 4) • g + b • k

theorem joint_spec (g k : G) (a b : Int) (hb : b % 2 = 1 ∧ |b| < 4) : joint g k (4 * a + b) = a • g + b • k ∨ a % 2 = 0 := by
  by_cases ha : a % 2 = 0
  · exact .inr ha
  · left
    obtain ⟨h1, h2⟩ := hb
    obtain ⟨h3, h4⟩ := abs_lt.mp h2
    unfold joint
    simp only
    have e : (4 * a + b) % 8 - 4 = b := by omega
    rw [e]
    congr 2
    omega

/-- the table entry with index `i` belongs to the digit `2 i + 1` -/
theorem jointTable_spec (h : PtSound o Low Rel) {P Q S T : X} {g k : G} (hP : Low P g) (hQ : Low Q k) (hS : Low S (k + k)) (hT : Low T (g + g)) :
    ∀ i < 8, ∀ x, Low ((jointTable o P Q S T).getD i x) (joint g k (2 * i + 1)) := by
  intro i hi x
  have w1 := h.sub (h.low hP) hQ
  have w2 := h.add (h.low hP) (h.low hQ)
  have w0 := h.sub (h.low w1) hS
  have w3 := h.add (h.low w2) (h.low hS)
  have w5 := h.add (h.low w1) (h.low hT)
  have w6 := h.add (h.low w2) (h.low hT)
  have w4 := h.sub (h.low w5) hS
  have w7 := h.add (h.low w6) (h.low hS)
  have fin : ∀ {x : X} {a c : G}, Low x a → a = c → Low x c := fun hx e => e ▸ hx
  interval_cases i <;> simp only [jointTable, List.getD_cons_zero, List.getD_cons_succ]
  · exact fin w0 (by simp [joint]; abel)
  · exact fin w1 (by simp [joint]; abel)
  · exact fin w2 (by simp [joint])
  · exact fin w3 (by simp [joint]; abel)
  · exact fin w4 (by simp [joint]; abel)
  · exact fin w5 (by simp [joint]; abel)
  · exact fin w6 (by simp [joint]; abel)
  · exact fin w7 (by simp [joint]; abel)

theorem joint_digit (g k : G) (d : Int) (ho : d % 2 = 1) (hd : |d| < 16) :
    (if d < 0 then -joint g k (2 * ((d.natAbs - 1) / 2 : Nat) + 1) else joint g k (2 * ((d.natAbs - 1) / 2 : Nat) + 1)) = joint g k d := by
  by_cases hneg : d < 0
  · rw [if_pos hneg]
    have e : (2 * ((d.natAbs - 1) / 2 : Nat) + 1 : Int) = -d := by omega
    rw [e]
    unfold joint
    simp only
    have e1 : (-d) % 8 - 4 = -(d % 8 - 4) := by omega
    have e2 : (-d - -(d % 8 - 4)) / 4 = -((d - (d % 8 - 4)) / 4) := by omega
    rw [e1, e2, neg_smul, neg_smul]; abel
  · rw [if_neg hneg]
    have e : (2 * ((d.natAbs - 1) / 2 : Nat) + 1 : Int) = d := by omega
    rw [e]

theorem horner2 (g k : G) : ∀ (as bs : List Int), as.length = bs.length → (∀ a ∈ as, a % 2 = 1 ∧ |a| < 4) → (∀ a ∈ bs, a % 2 = 1 ∧ |a| < 4) →
    (List.zipWith (fun x y => 4 * x + y) as bs).reverse.foldl (fun A d => (2 ^ 2 : Int) • A + joint g k d) (g + k) =
      (sval (2 ^ 2) as + (2 ^ 2) ^ as.length) • g + (sval (2 ^ 2) bs + (2 ^ 2) ^ bs.length) • k
  | [], [], _, _, _ => by simp [sval]
  | a :: as, b :: bs, hl, ha, hb => by
    simp only [List.zipWith_cons_cons, List.reverse_cons, List.foldl_append, List.foldl_cons, List.foldl_nil]
    rw [horner2 g k as bs (by simpa using hl) (fun x hx => ha x (by simp [hx])) (fun x hx => hb x (by simp [hx]))]
    rw [(joint_spec g k a b (hb b (by simp))).resolve_right (by have := (ha a (by simp)).1; omega)]
    simp only [sval, List.length_cons, pow_succ ((2 : Int) ^ 2)]
    generalize ((2 : Int) ^ 2) ^ as.length = u
    generalize ((2 : Int) ^ 2) ^ bs.length = v
    module

/-- `mul2Win` computes `E * P + F * Q` -/
theorem mul2Win_spec (h : PtSound o Low Rel) {b n : Nat} (ok : Ok C b) (hn : 2 ≤ n) {P Q : X} {g k : G} (hP : Low P g) (hQ : Low Q k) {e f : Limbs C} {E F : Nat}
    (he : Rep b n e E) (hf : Rep b n f F) (hE : E + 2 < 2 ^ (b * n - 4)) (hF : F + 2 < 2 ^ (b * n - 4)) (hbn : 8 ≤ b * n) :
    ∃ r, mul2Win o b n P e Q f = some r ∧ Low r ((E : Int) • g + (F : Int) • k) := by
  have hbig : (2 : Nat) ^ (b * n - 4) * 2 ^ 4 = 2 ^ (b * n) := by rw [← pow_add]; congr 1; omega
  have hpos : 0 < (2 : Nat) ^ (b * n - 4) := by positivity
  have hbigi : (16 : Int) * 2 ^ (b * n - 4) = 2 ^ (b * n) := by
    have : ((2 ^ (b * n - 4) * 2 ^ 4 : Nat) : Int) = ((2 ^ (b * n) : Nat) : Int) := by rw [hbig]
    push_cast at this; linarith
  have hEi : (E : Int) + 2 < 2 ^ (b * n - 4) := by exact_mod_cast hE
  have hFi : (F : Int) + 2 < 2 ^ (b * n - 4) := by exact_mod_cast hF
  obtain ⟨m1, m2⟩ := makeOdd_spec ok hn he (by omega)
  obtain ⟨m3, m4⟩ := makeOdd_spec ok hn hf (by omega)
  set T := E + 1 + E % 2 with hT
  set U := F + 1 + F % 2 with hU
  have hTl : (T : Int) < 2 ^ (b * n - 4) := by omega
  have hUl : (U : Int) < 2 ^ (b * n - 4) := by omega
  have hcg := cap_ge (n := n) ok (by omega)
  have hmt : Rep b n (norm b (add (makeOdd b e).1 (makeOdd b f).1)) ((T + U : Nat) : Int) := by
    push_cast
    have : 0 ≤ cap C b n := le_of_lt (lt_of_lt_of_le (two_pow_pos' _) hcg)
    exact norm_add_rep ok (by omega) m1 m3 (by omega) (by omega) (by omega) (by omega)
  have hnorm := rep_norm ok (by omega) hmt (by omega) (by push_cast; omega)
  obtain ⟨b1, b2, _⟩ := nbits_spec ok (norm b (add (makeOdd b e).1 (makeOdd b f).1)) (V := ((T + U : Nat) : Int)) (by rw [hnorm]; exact hmt) (by omega)
  set nbt := nbits b (norm b (add (makeOdd b e).1 (makeOdd b f).1)) with hnbt
  set nb := 1 + (nbt + 1) / 2 with hnb
  have hlen : nbt ≤ b * n - 3 := by
    by_contra hc
    obtain ⟨_, b3⟩ := b2 (by omega)
    have h1 : (2 : Int) ^ (b * n - 3) ≤ 2 ^ (nbt - 1) := pow_le_pow_right₀ (by norm_num) (by omega)
    have h2 : (2 : Int) ^ (b * n - 3) = 2 * 2 ^ (b * n - 4) := by rw [← pow_succ']; congr 1; omega
    push_cast at b3
    omega
  have hct : ¬ (1 + (n * b + 1) / 2 ≤ nb) := by
    rw [hnb, Nat.mul_comm n b]; omega
  have hTUk : T + U < 2 ^ (2 * nb + 1) := by
    have h1 : T + U < 2 ^ nbt := by exact_mod_cast b1
    exact lt_of_lt_of_le h1 (Nat.pow_le_pow_right (by norm_num) (by omega))
  obtain ⟨r1, r2, r3, r4⟩ := recode_spec ok hn (Or.inr rfl) nb _ T m1 (by omega) (by norm_num; omega) (by omega)
  obtain ⟨t1, t2, t3, t4⟩ := recode_spec ok hn (Or.inr rfl) nb _ U m3 (by omega) (by norm_num; omega) (by omega)
  have hdP := h.dbl (h.low hP)
  have hdQ := h.dbl (h.low hQ)
  have hW := jointTable_spec h hP hQ hdQ hdP
  have corr : ∀ {Y : X} {y : G} {Z : Nat} {z : Limbs C}, Low Y y → (makeOdd b z).2 = 1 - Z % 2 →
      Low (o.cmove (o.dbl Y) Y (makeOdd b z).2) (((Z + 1 + Z % 2 : Nat) - Z : Int) • y) := by
    intro Y y Z z hY hz
    rw [hz]
    rcases Nat.mod_two_eq_zero_or_one Z with h0 | h0
    · rw [h0]
      have : (((Z + 1 + 0 : Nat) : Int) - Z) = 1 := by push_cast; ring
      rw [this, one_smul, h.cmove1 (h.low (h.dbl (h.low hY))) (h.low hY)]; exact hY
    · rw [h0]
      have : (((Z + 1 + 1 : Nat) : Int) - Z) = 2 := by push_cast; ring
      rw [this, two_smul, h.cmove0 (h.low (h.dbl (h.low hY))) (h.low hY)]; exact h.dbl (h.low hY)
  have c1 := corr hP m2
  have c2 := corr hQ m4
  rw [← hT] at c1
  rw [← hU] at c2
  have hlast : ∀ {w : Limbs C}, Rep b n w ((1 : Nat) : Int) → (lastbits b w 3).toNat = 1 := by
    intro w hw
    have hb := ok.hb
    have hno := rep_norm ok (by omega) hw (by norm_num) (by push_cast; omega)
    have := lastbits_spec ok (by omega : 3 ≤ b) (w := w) (V := ((1 : Nat) : Int)) (by rw [hno]; exact hw)
    norm_num at this
    have h1 := toNat_of_toInt_nonneg _ (by rw [this]; norm_num : 0 ≤ (lastbits b w 3).toInt)
    omega
  have hD : ∀ {x : X} {y : G}, Low x y → Low (o.dbl (o.dbl x)) ((2 ^ 2 : Int) • y) := by
    intro x y hx
    have := h.dbl (h.low (h.dbl (h.low hx)))
    have e : y + y + (y + y) = (2 ^ 2 : Int) • y := by module
    rwa [e] at this
  obtain ⟨q1, q2⟩ := recode2_eq b nb (makeOdd b e).1 (makeOdd b f).1
  have hstart : Low ((jointTable o P Q (o.dbl Q) (o.dbl P)).getD ((4 * 1 + 1 - 1) / 2) P) (g + k) := h.add (h.low hP) (h.low hQ)
  have r2' : ∀ d ∈ (recode b 2 nb (makeOdd b e).1).1, d % 2 = 1 ∧ |d| < 4 := fun d hd => by have := r2 d hd; norm_num at this; exact this
  have t2' : ∀ d ∈ (recode b 2 nb (makeOdd b f).1).1, d % 2 = 1 ∧ |d| < 4 := fun d hd => by have := t2 d hd; norm_num at this; exact this
  obtain ⟨q', w1, _⟩ := window_fold h hW hD (joint g k) (joint_digit g k) (recode2 b nb (makeOdd b e).1 (makeOdd b f).1).1.reverse
    (fun d hd => by
      rw [List.mem_reverse, q1] at hd
      obtain ⟨x, hx, y, hy, rfl⟩ := Fp.zipWith_mem hd
      obtain ⟨x1, x2⟩ := r2' x hx
      obtain ⟨y1, y2⟩ := t2' y hy
      rw [abs_lt] at x2 y2 ⊢
      omega) (_, _) _ _ hstart (h.low c1)
  have hcc := h.add (h.low c1) (h.low c2)
  have fin := h.sub (h.low w1) hcc
  rw [q1, horner2 g k _ _ (by rw [r1, t1]) r2' t2', r1, t1, ← pow_mul, r4, t4] at fin
  have e2 : (T : Int) • g + (U : Int) • k - (((T : Int) - E) • g + ((U : Int) - F) • k) = (E : Int) • g + (F : Int) • k := by module
  rw [e2] at fin
  refine ⟨_, ?_, fin⟩
  unfold mul2Win
  simp only
  rw [if_neg hct, q2]
  simp only
  rw [hlast r3, hlast t3, q1]
  rfl

end Verif.Ecp
