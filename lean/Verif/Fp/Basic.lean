import Verif.Spec.Field
import Verif.Big.Monty
import Verif.Big.Mul
import Verif.Big.Sqr
import Verif.Big.Small
import Verif.Big.Small2
import Verif.Big.Modular
import Verif.Big.Inverse
import Mathlib.Tactic.Linarith
import Mathlib.Tactic.Ring
import Mathlib.Tactic.Positivity
namespace Verif.Fp
open Verif.Big Spec

variable {C : Nat}

/-- normalisation of limbs that are `k` digits wide -/
theorem normGo_wide {b : Nat} (ok : Ok C b) (k : Nat) (hk : (k : Int) * 2 ^ b ≤ 2 ^ (C - 1)) (ws : Limbs C) (carry : BitVec C)
    (hne : ws ≠ []) (hs : LimbsWithin (k * (2 ^ b - 1)) ws) (hc1 : -(k : Int) ≤ carry.toInt) (hc2 : carry.toInt < k ∨ carry.toInt = 0) :
    (normGo b carry ws).length = ws.length ∧ Normal b (normGo b carry ws)
      ∧ limbsVal b (normGo b carry ws) = limbsVal b ws + carry.toInt := by
  have hbC := ok.hC
  have hb := ok.hb
  have hBpos : (0 : Int) < 2 ^ b := two_pow_pos' b
  have hC1 := two_pow_pos' (C - 1)
  induction ws generalizing carry with
  | nil => exact absurd rfl hne
  | cons x xs ih =>
    have hx := hs x (by simp)
    rw [mul_sub, mul_one] at hx
    have hd : (x + carry).toInt = x.toInt + carry.toInt :=
      toInt_add_of _ _ (by omega) (by omega) (by
        rcases Nat.eq_zero_or_pos k with hk0 | hk0
        · subst hk0; simp only [Nat.cast_zero, zero_mul] at hx hk; omega
        · rcases hc2 with h | h <;> omega)
    cases xs with
    | nil =>
      refine ⟨rfl, trivial, ?_⟩
      simp only [normGo, limbsVal, hd]; ring
    | cons y r =>
      have hcar : ((x + carry).sshiftRight b).toInt = (x.toInt + carry.toInt) / 2 ^ b := by
        rw [toInt_sshr, hd]
      have hlo : -(k : Int) ≤ (x.toInt + carry.toInt) / 2 ^ b := by
        rw [Int.le_ediv_iff_mul_le hBpos]; linarith
      have hhi : (x.toInt + carry.toInt) / 2 ^ b < k ∨ (x.toInt + carry.toInt) / 2 ^ b = 0 := by
        rcases hc2 with h | h
        · left; rw [Int.ediv_lt_iff_lt_mul hBpos]; linarith
        · by_cases hk0 : k = 0
          · right; subst hk0; simp at hx; rw [h]; have : x.toInt = 0 := by omega
            simp [this]
          · left; rw [Int.ediv_lt_iff_lt_mul hBpos]; omega
      have IH := ih ((x + carry).sshiftRight b) (by simp) (fun z hz => hs z (by simp only [List.mem_cons] at hz ⊢; tauto))
        (by rw [hcar]; exact hlo) (by rw [hcar]; exact hhi)
      obtain ⟨i1, i2, i3⟩ := IH
      have hlow : ((x + carry) &&& bmask C b).toInt = (x.toInt + carry.toInt) % 2 ^ b := by
        rw [toInt_and_mask _ b (by omega), hd]
      show (((x + carry) &&& bmask C b) :: normGo b ((x + carry).sshiftRight b) (y :: r)).length = _ ∧ _
      refine ⟨by simp [i1], ?_, ?_⟩
      · exact Normal.cons (by rw [hlow]; exact Int.emod_nonneg _ hBpos.ne')
          (by rw [hlow]; exact Int.emod_lt_of_pos _ hBpos) i2
      · show limbsVal b (((x + carry) &&& bmask C b) :: normGo b ((x + carry).sshiftRight b) (y :: r)) = _
        simp only [limbsVal] at i3 ⊢
        rw [i3, hlow, hcar]
        have := Int.emod_add_mul_ediv (x.toInt + carry.toInt) (2 ^ b)
        linarith

theorem norm_wide {b : Nat} (ok : Ok C b) (k : Nat) (hk : (k : Int) * 2 ^ b ≤ 2 ^ (C - 1)) (ws : Limbs C)
    (hne : ws ≠ []) (hs : LimbsWithin (k * (2 ^ b - 1)) ws) : Rep b ws.length (Big.norm b ws) (limbsVal b ws) := by
  have h := normGo_wide ok k hk ws 0 hne hs (by simp) (by simp)
  exact ⟨h.1, h.2.1, by simpa [Big.norm] using h.2.2⟩

section
variable {P : Params C} {p : Nat}

theorem Consts.cpow (h : Consts P p) : P.modbits = P.b * (P.n - 1) + P.tbits := by
  have := Nat.div_add_mod P.modbits P.b
  rw [h.toplimb] at this; unfold Params.tbits; omega

theorem Consts.ppos (h : Consts P p) : 0 < p := lt_of_lt_of_le (by positivity) h.lower

theorem Consts.b_pos (h : Consts P p) : 0 < P.b := by have := h.ok.hb; omega

/-- `2^SH * p < 2^(BASEBITS*NLEN)` -/
theorem Consts.p_sh (h : Consts P p) : (2 : Int) ^ P.sh * p < 2 ^ (P.b * P.n) := by
  have h1 : (p : Int) < 2 ^ P.modbits := by exact_mod_cast h.upper
  calc (2 : Int) ^ P.sh * p < 2 ^ P.sh * 2 ^ P.modbits := mul_lt_mul_of_pos_left h1 (two_pow_pos' _)
    _ = 2 ^ (P.modbits + P.sh) := by rw [← pow_add, add_comm]
    _ ≤ 2 ^ (P.b * P.n) := pow_le_pow_right₀ (by norm_num) h.shtop

theorem Consts.xes_p (h : Consts P p) {x : Nat} (hx : x ≤ 2 ^ P.sh) : (x : Int) * p < 2 ^ (P.b * P.n) := by
  have : (x : Int) ≤ 2 ^ P.sh := by exact_mod_cast hx
  calc (x : Int) * p ≤ 2 ^ P.sh * p := mul_le_mul_of_nonneg_right this (by positivity)
    _ < _ := h.p_sh

theorem Consts.md_rep (h : Consts P p) : Rep P.b P.n P.md p := ⟨h.mdlen, h.mddig.normal, h.mdval⟩

/-- a left shift of the modulus by at most `SH` bits -/
theorem Consts.md_shift (h : Consts P p) {s : Nat} (hs : s ≤ P.sh) :
    Rep P.b P.n (fshl P.b s P.md) (2 ^ s * p) ∧ Digits P.b (fshl P.b s P.md) := by
  have hC := h.ok.hC
  have hb := h.ok.hb
  have hn := h.hn
  have hsh := h.shtop
  have hcp := h.cpow
  have htb : P.tbits + P.sh ≤ P.b := by
    have : P.b * P.n = P.b * (P.n - 1) + P.b := by
      rw [show P.n = (P.n - 1) + 1 by omega, Nat.mul_add, Nat.mul_one]; simp
    omega
  have hne : P.md ≠ [] := h.md_rep.ne_nil (by omega)
  have ht := top_eq P.md hne h.mddig.normal
  rw [h.mdval, h.mdlen] at ht
  have ht0 : 0 ≤ (P.md.getLastD 0).toInt := by rw [ht]; exact Int.ediv_nonneg (by positivity) (two_pow_pos' _).le
  have ht1 : (P.md.getLastD 0).toInt < 2 ^ P.tbits := by
    rw [ht, Int.ediv_lt_iff_lt_mul (two_pow_pos' _), ← pow_add]
    have := h.upper; rw [hcp, add_comm] at this
    exact_mod_cast this
  have hpw : (2 : Int) ^ P.tbits * 2 ^ s ≤ 2 ^ (C - 1) := by
    rw [← pow_add]; exact pow_le_pow_right₀ (by norm_num) (by omega)
  have hs0 := two_pow_pos' s
  obtain ⟨f1, f2, f3⟩ := fshl_spec' h.ok (by omega : s ≤ P.b) P.md (by rw [h.mdlen]; exact hn) h.mddig.normal
    (by have := two_pow_pos' (C - 1); nlinarith) (by nlinarith)
  have hr : Rep P.b P.n (fshl P.b s P.md) (2 ^ s * p) := ⟨by rw [f1, h.mdlen], f2, by rw [f3, h.mdval]⟩
  refine ⟨hr, hr.digits (by positivity) ?_⟩
  calc (2 : Int) ^ s * p ≤ 2 ^ P.sh * p :=
        mul_le_mul_of_nonneg_right (pow_le_pow_right₀ (by norm_num) hs) (by positivity)
    _ < _ := h.p_sh

theorem Valid.ne_nil (h : Consts P p) {k : Nat} {a : Fp C} (ha : Valid P p k a) : a.x ≠ [] := by
  have h1 := ha.len; have := h.hn; rintro e; rw [e] at h1; simp at h1; omega

theorem fexcess_lt (P : Params C) : P.fexcess < 2 ^ P.sh := by
  unfold Params.fexcess; have := Nat.one_le_two_pow (n := P.sh); omega

theorem Valid.fit (h : Consts P p) {k : Nat} {a : Fp C} (ha : Valid P p k a) : limbsVal P.b a.x < 2 ^ (P.b * P.n) :=
  ha.lt.trans (h.xes_p (le_of_lt (lt_of_le_of_lt ha.xes2 (fexcess_lt P))))

theorem Digits.lim {b : Nat} {w : Limbs C} (h : Digits b w) (k : Nat) (hk : 1 ≤ k) : LimbsWithin (k * (2 ^ b - 1)) w := by
  intro x hx
  have h1 := h x hx
  have h2 := two_pow_pos' b
  have h3 : (1 : Int) * (2 ^ b - 1) ≤ k * (2 ^ b - 1) :=
    mul_le_mul_of_nonneg_right (by exact_mod_cast hk) (by omega)
  constructor <;> omega

theorem Normed.of_rep {a : Fp C} {X : Int} (h : Consts P p) (hr : Rep P.b P.n a.x X) (h0 : 0 ≤ X) (h1 : X < a.xes * p)
    (x1 : 1 ≤ a.xes) (x2 : a.xes ≤ P.fexcess) : Normed P p a := by
  have hd : Digits P.b a.x := hr.digits h0 (h1.trans (h.xes_p (le_of_lt (lt_of_le_of_lt x2 (fexcess_lt P)))))
  exact ⟨⟨hr.len, Digits.lim hd 1 le_rfl, by rw [hr.val]; exact h0, by rw [hr.val]; exact h1, x1, x2⟩, hd⟩

theorem Normed.rep {a : Fp C} (ha : Normed P p a) : Rep P.b P.n a.x (limbsVal P.b a.x) :=
  ⟨ha.valid.len, ha.digits.normal, rfl⟩

theorem Valid.mono {k l : Nat} {a : Fp C} (ha : Valid P p k a) (hkl : k ≤ l) : Valid P p l a := by
  refine ⟨ha.len, ?_, ha.nonneg, ha.lt, ha.xes1, ha.xes2⟩
  apply within_mono _ _ ha.lim
  have := two_pow_pos' P.b
  exact mul_le_mul_of_nonneg_right (by exact_mod_cast hkl) (by omega)

/-- `norm` keeps the value and makes the limbs digits -/
theorem norm_normed (h : Consts P p) {k : Nat} {a : Fp C} (ha : Valid P p k a) (hk : Room P k) :
    Normed P p (norm P a) ∧ limbsVal P.b (norm P a).x = limbsVal P.b a.x ∧ (norm P a).xes = a.xes := by
  have hr := norm_wide h.ok k (by exact_mod_cast hk) a.x (ha.ne_nil h) ha.lim
  rw [ha.len] at hr
  exact ⟨Normed.of_rep h hr ha.nonneg ha.lt ha.xes1 ha.xes2, hr.val, rfl⟩

end
end Verif.Fp
