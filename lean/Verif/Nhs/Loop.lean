import Verif.Nhs.Arith
import Mathlib.Tactic.Ring
/- Helper lemmas: closed form of the in-place butterfly loops of `nhs.rs`. -/
namespace Verif.Nhs

/-- an in-place update of positions `j` and `j+t` from their old contents -/
def two (f g : I32 → I32 → I32) (t : Nat) (x : Poly) (j : Nat) : Poly := fun p =>
  if p = j + t then g (x j) (x (j + t)) else if p = j then f (x j) (x (j + t)) else x p

theorem inner_closed (f g : I32 → I32 → I32) (t k : Nat) (x : Poly) :
    ∀ n, n ≤ t → ∀ p, (List.range n).foldl (fun x j => two f g t x (k + j)) x p =
      if k ≤ p ∧ p < k + n then f (x p) (x (p + t)) else if k + t ≤ p ∧ p < k + t + n then g (x (p - t)) (x p) else x p := by
  intro n
  induction n with
  | zero => intro _ p; rw [if_neg (by omega), if_neg (by omega)]; rfl
  | succ n ih =>
    intro hn p
    rw [List.range_succ, List.foldl_append]
    simp only [List.foldl_cons, List.foldl_nil]
    have ih := ih (by omega)
    generalize (List.range n).foldl (fun x j => two f g t x (k + j)) x = y at ih
    have h1 : y (k + n) = x (k + n) := by
      rw [ih, if_neg (by omega), if_neg (by omega)]
    have h2 : y (k + n + t) = x (k + n + t) := by
      rw [ih, if_neg (by omega), if_neg (by omega)]
    unfold two
    rw [h1, h2]
    by_cases c1 : p = k + n + t
    · subst c1
      rw [if_pos rfl, if_neg (by omega), if_pos (by omega), Nat.add_sub_cancel]
    · rw [if_neg c1]
      by_cases c2 : p = k + n
      · subst c2
        rw [if_pos rfl, if_pos (by omega)]
      · rw [if_neg c2, ih]
        by_cases c3 : k ≤ p ∧ p < k + n
        · rw [if_pos c3, if_pos (by omega)]
        · rw [if_neg c3, if_neg (by omega : ¬(k ≤ p ∧ p < k + (n + 1)))]
          by_cases c4 : k + t ≤ p ∧ p < k + t + n
          · rw [if_pos c4, if_pos (by omega)]
          · rw [if_neg c4, if_neg (by omega)]

theorem idx {t c r : Nat} (h : r < 2 * t) : (2 * t * c + r) / (2 * t) = c ∧ (2 * t * c + r) % (2 * t) = r := by
  constructor
  · rw [Nat.mul_add_div (by omega), Nat.div_eq_of_lt h, Nat.add_zero]
  · rw [Nat.mul_add_mod, Nat.mod_eq_of_lt h]

theorem outer_closed (f g : Nat → I32 → I32 → I32) (t : Nat) (ht : 0 < t) (x : Poly) :
    ∀ m, ((List.range m).foldl (fun (st : Poly × Nat) i =>
        ((List.range t).foldl (fun x j => two (f i) (g i) t x (st.2 + j)) st.1, st.2 + 2 * t)) (x, 0)).2 = 2 * t * m ∧
      ∀ c r, r < 2 * t → ((List.range m).foldl (fun (st : Poly × Nat) i =>
        ((List.range t).foldl (fun x j => two (f i) (g i) t x (st.2 + j)) st.1, st.2 + 2 * t)) (x, 0)).1 (2 * t * c + r) =
      if c < m then
        (if r < t then f c (x (2 * t * c + r)) (x (2 * t * c + (r + t))) else g c (x (2 * t * c + (r - t))) (x (2 * t * c + r)))
      else x (2 * t * c + r) := by
  intro m
  induction m with
  | zero => simp
  | succ m ih =>
    rw [List.range_succ, List.foldl_append]
    simp only [List.foldl_cons, List.foldl_nil]
    obtain ⟨i1, i2⟩ := ih
    generalize (List.range m).foldl (fun (st : Poly × Nat) i =>
        ((List.range t).foldl (fun x j => two (f i) (g i) t x (st.2 + j)) st.1, st.2 + 2 * t)) (x, 0) = st at i1 i2
    obtain ⟨y, k⟩ := st
    simp only at i1 i2 ⊢
    subst i1
    refine ⟨by ring, fun c r hr => ?_⟩
    rw [inner_closed _ _ _ _ _ t (le_refl t)]
    rcases Nat.lt_trichotomy c m with h | h | h
    · have h3 : 2 * t * c + 2 * t ≤ 2 * t * m := by
        calc 2 * t * c + 2 * t = 2 * t * (c + 1) := by ring
          _ ≤ _ := Nat.mul_le_mul_left _ h
      rw [if_neg (by omega), if_neg (by omega), i2 c r hr, if_pos h, if_pos (by omega : c < m + 1)]
    · subst h
      rw [if_pos (by omega : c < c + 1)]
      have e : ∀ r, r < 2 * t → y (2 * t * c + r) = x (2 * t * c + r) := fun r hr => by rw [i2 c r hr, if_neg (by omega)]
      by_cases hc : r < t
      · rw [if_pos (by omega), if_pos hc, e r hr, Nat.add_assoc, e _ (by omega)]
      · rw [if_neg (by omega), if_pos (by omega), if_neg hc, e r hr, show 2 * t * c + r - t = 2 * t * c + (r - t) by omega, e _ (by omega)]
    · have h3 : 2 * t * m + 2 * t ≤ 2 * t * c := by
        calc 2 * t * m + 2 * t = 2 * t * (m + 1) := by ring
          _ ≤ _ := Nat.mul_le_mul_left _ h
      rw [if_neg (by omega), if_neg (by omega), i2 c r hr, if_neg (by omega), if_neg (by omega)]

/-- the words used as twiddle factors -/
def rootW (n : Nat) : I32 := BitVec.ofNat 32 (ROOTS.getD n 0)
def irootW (n : Nat) : I32 := BitVec.ofNat 32 (IROOTS.getD n 0)

theorem ctLayer_closed (m t : Nat) (ht : 0 < t) (x : Poly) (c r : Nat) (hr : r < 2 * t) :
    ctLayer m t x (2 * t * c + r) = if c < m then
      (if r < t then x (2 * t * c + r) + modmul (x (2 * t * c + (r + t))) (rootW (m + c))
       else x (2 * t * c + (r - t)) + 2 * PRIME - modmul (x (2 * t * c + r)) (rootW (m + c)))
      else x (2 * t * c + r) :=
  (outer_closed (fun i u y => u + modmul y (rootW (m + i))) (fun i u y => u + 2 * PRIME - modmul y (rootW (m + i))) t ht x m).2 c r hr

theorem gsLayer_closed (m t : Nat) (ht : 0 < t) (x : Poly) (c r : Nat) (hr : r < 2 * t) :
    gsLayer m t x (2 * t * c + r) = if c < m then
      (if r < t then x (2 * t * c + r) + x (2 * t * c + (r + t))
       else modmul (x (2 * t * c + (r - t)) + BitVec.ofNat 32 DEGREE * PRIME - x (2 * t * c + r)) (irootW (m + c)))
      else x (2 * t * c + r) :=
  (outer_closed (fun _ u y => u + y) (fun i u y => modmul (u + BitVec.ofNat 32 DEGREE * PRIME - y) (irootW (m + i))) t ht x m).2 c r hr

theorem last_closed (x : Poly) (p : Nat) :
    (List.range 512).foldl (lastStep 512) x p =
      if p < 512 then modmul (x p + x (p + 512)) INV
      else if p < 1024 then modmul (x (p - 512) + BitVec.ofNat 32 DEGREE * PRIME - x p) INVPR else x p := by
  have e : (lastStep 512) = fun x j => two (fun u y => modmul (u + y) INV)
      (fun u y => modmul (u + BitVec.ofNat 32 DEGREE * PRIME - y) INVPR) 512 x (0 + j) := by
    funext x j p
    unfold lastStep two put
    simp only [Nat.zero_add]
    by_cases h : p = j
    · subst h; rw [if_pos rfl, if_neg (by omega), if_pos rfl]
    · rw [if_neg h, if_neg h]
  rw [e, inner_closed _ _ _ _ _ 512 (le_refl _)]
  simp only [Nat.zero_add, Nat.zero_le, true_and]
  by_cases h : p < 512
  · rw [if_pos h, if_pos h]
  · rw [if_neg h, if_neg h]
    by_cases h2 : p < 1024
    · rw [if_pos (by omega), if_pos h2]
    · rw [if_neg (by omega), if_neg h2]

/-- invariant rule for the loop of `ntt` -/
theorem nttLoop_inv (P : Nat → Poly → Prop) (step : ∀ k, k < 10 → ∀ x, P k x → P (k + 1) (ctLayer (2 ^ k) (2 ^ (9 - k)) x)) :
    ∀ d k f t x, k + d = 10 → d ≤ f → (0 < d → t = 2 ^ (9 - k)) → P k x → P 10 (nttLoop f (2 ^ k) t x) := by
  intro d
  induction d with
  | zero =>
    intro k f t x hk _ _ h
    have hk : k = 10 := by omega
    subst hk
    cases f with
    | zero => exact h
    | succ f => rw [nttLoop, if_neg (by decide)]; exact h
  | succ d ih =>
    intro k f t x hk hf ht h
    obtain ⟨f, rfl⟩ : ∃ g, f = g + 1 := ⟨f - 1, by omega⟩
    have ht := ht (by omega)
    subst ht
    have hlt : (2 : Nat) ^ k < DEGREE := by
      calc (2 : Nat) ^ k < 2 ^ 10 := Nat.pow_lt_pow_right (by decide) (by omega)
        _ = DEGREE := rfl
    rw [nttLoop, if_pos hlt, ← pow_succ]
    refine ih (k + 1) f _ _ (by omega) (by omega) (fun hd => ?_) (step k (by omega) x h)
    rw [show 9 - k = (9 - (k + 1)) + 1 by omega, pow_succ, Nat.mul_div_cancel _ (by decide)]

/-- invariant rule for the loop of `intt` -/
theorem inttLoop_inv (P : Nat → Poly → Prop)
    (step : ∀ k, 1 ≤ k → k < 10 → ∀ x, P (k + 1) x → P k (gsLayer (2 ^ k) (2 ^ (9 - k)) x)) :
    ∀ k f t x, k < 10 → k ≤ f → t = 2 ^ (9 - k) → P (k + 1) x → P 1 (inttLoop f (2 ^ k) t x) := by
  intro k
  induction k with
  | zero =>
    intro f t x _ _ _ h
    cases f with
    | zero => exact h
    | succ f => rw [inttLoop, if_neg (by decide)]; exact h
  | succ k ih =>
    intro f t x hk hf ht h
    obtain ⟨f, rfl⟩ : ∃ g, f = g + 1 := ⟨f - 1, by omega⟩
    subst ht
    have hlt : (2 : Nat) ^ (k + 1) > 1 := Nat.one_lt_two_pow (by omega)
    rw [inttLoop, if_pos hlt]
    have e : (2 : Nat) ^ (k + 1) / 2 = 2 ^ k := by rw [pow_succ, Nat.mul_div_cancel _ (by decide)]
    rw [e]
    refine ih f _ _ (by omega) (by omega) ?_ (step (k + 1) (by omega) hk x h)
    rw [show 9 - k = (9 - (k + 1)) + 1 by omega, pow_succ]

theorem layer_idx (k : Nat) (hk : k < 10) (p : Nat) :
    p = 2 * 2 ^ (9 - k) * (p / (2 * 2 ^ (9 - k))) + p % (2 * 2 ^ (9 - k)) ∧ p % (2 * 2 ^ (9 - k)) < 2 * 2 ^ (9 - k) ∧
    (p / (2 * 2 ^ (9 - k)) < 2 ^ k ↔ p < 1024) := by
  have e : 2 ^ k * (2 * 2 ^ (9 - k)) = 1024 := by
    rw [← pow_succ', ← pow_add, show k + (9 - k + 1) = 10 by omega]; rfl
  refine ⟨(Nat.div_add_mod _ _).symm, Nat.mod_lt _ (by positivity), ?_⟩
  rw [Nat.div_lt_iff_lt_mul (by positivity), e]

theorem ctLayer_frame (k : Nat) (hk : k < 10) (x : Poly) (p : Nat) (hp : 1024 ≤ p) : ctLayer (2 ^ k) (2 ^ (9 - k)) x p = x p := by
  obtain ⟨e, h1, h2⟩ := layer_idx k hk p
  rw [e, ctLayer_closed _ _ (by positivity) _ _ _ h1, if_neg (by rw [h2]; omega)]

theorem gsLayer_frame (k : Nat) (hk : k < 10) (x : Poly) (p : Nat) (hp : 1024 ≤ p) : gsLayer (2 ^ k) (2 ^ (9 - k)) x p = x p := by
  obtain ⟨e, h1, h2⟩ := layer_idx k hk p
  rw [e, gsLayer_closed _ _ (by positivity) _ _ _ h1, if_neg (by rw [h2]; omega)]

/-- `ntt` never writes outside the array -/
theorem ntt_frame (x : Poly) (p : Nat) (hp : 1024 ≤ p) : ntt x p = x p := by
  refine nttLoop_inv (fun _ y => y p = x p) (fun k hk y hy => ?_) 10 0 1024 512 _ rfl (by decide) (fun _ => rfl) ?_
  · rw [ctLayer_frame k hk y p hp]; exact hy
  · unfold toMont DEGREE; rw [if_neg (by omega)]

/-- `intt` never writes outside the array -/
theorem intt_frame (x : Poly) (p : Nat) (hp : 1024 ≤ p) : intt x p = x p := by
  have h := inttLoop_inv (fun _ y => y p = x p) (fun k _ hk y hy => by
    show gsLayer _ _ y p = x p; rw [gsLayer_frame k hk y p hp]; exact hy) 9 1024 1 x (by decide) (by decide) rfl rfl
  unfold intt
  simp only [show DEGREE = 1024 from rfl] at h ⊢
  rw [if_neg (by omega), last_closed, if_neg (by omega), if_neg (by omega)]
  exact h

end Verif.Nhs
