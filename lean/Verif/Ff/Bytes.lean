import Verif.Ff.InvP
import Verif.Common.Bytes
/- Helper lemmas: byte encodings and small operations of ff.rs. -/
namespace Verif.Ff
open Spec Verif.Big

variable {C b n R : Nat}

theorem fromBytes_ff (f : FOk C b n R) {mb : Nat} (hR : R = 8 * mb) (m : Nat) (bs : List (BitVec 8)) (hl : m * mb ≤ bs.length) :
    (fromBytes (C := C) b n mb m bs).length = m ∧ Canon b n R (fromBytes (C := C) b n mb m bs) ∧
      fval b R (fromBytes (C := C) b n mb m bs) = beNat (bs.take (m * mb)) := by
  have hf := f.hf
  induction m with
  | zero => exact ⟨rfl, by intro d hd; simp [fromBytes] at hd, by simp [fromBytes, fval]⟩
  | succ m ih =>
    have hm : (m + 1) * mb = m * mb + mb := Nat.succ_mul m mb
    obtain ⟨h1, h2, h3⟩ := ih (by omega)
    have hr := fromBytes_rep (C := C) f.ok f.hn mb (by omega) (bs.drop (m * mb))
    have hlen : ((bs.drop (m * mb)).take mb).length = mb := by simp; omega
    have e256 : (256 : Nat) ^ mb = 2 ^ R := by rw [hR, pow_mul]; norm_num
    have hlt := beNat_lt ((bs.drop (m * mb)).take mb)
    rw [hlen, e256] at hlt
    refine ⟨by simp [fromBytes, h1], ?_, ?_⟩
    · intro d hd
      rcases List.mem_cons.1 hd with rfl | hd
      · exact ⟨hr.len, hr.low, by rw [hr.val]; omega, by rw [hr.val]; exact_mod_cast hlt⟩
      · exact h2 d hd
    · rw [fromBytes, fval, hr.val, h3, hm, List.take_add, beNat_append, hlen, e256]
      push_cast
      ring

theorem toBytes_big (f : FOk C b n R) {mb : Nat} {d : Limbs C} (h : CanonD b n R d) : Big.toBytes b mb d = beBytes mb (limbsVal b d).toNat := by
  have hf := f.hf
  have hn := f.hn
  have hv : ((limbsVal b d).toNat : Int) = limbsVal b d := Int.toNat_of_nonneg h.nonneg
  have hr : Rep b n d ((limbsVal b d).toNat : Int) := ⟨h.len, h.low, hv.symm⟩
  have hp : (2 : Int) ^ R ≤ 2 ^ (b * n) := pow_le_pow_right₀ (by norm_num) (by omega)
  have hcap := cap_ge f.ok (n := n) (by omega)
  have hlt := h.lt
  have h0 := h.nonneg
  unfold Big.toBytes
  exact toBytesGo_spec f.ok mb _ _ (hr.norm f.ok (by omega) (by rw [hv]; linarith [two_pow_pos' (b * n)]) (by rw [hv]; linarith))

theorem toBytes_ff (f : FOk C b n R) {mb : Nat} (hR : R = 8 * mb) {x : FF C} (h : Canon b n R x) :
    toBytes b mb x = beBytes (x.length * mb) (fval b R x).toNat := by
  have e256 : (256 : Nat) ^ mb = 2 ^ R := by rw [hR, pow_mul]; norm_num
  induction x with
  | nil => simp [toBytes, beBytes]
  | cons d ds ih =>
    have hd := h d (by simp)
    have hds : Canon b n R ds := fun z hz => h z (by simp [hz])
    have e : toBytes b mb (d :: ds) = toBytes b mb ds ++ Big.toBytes b mb d := by simp [toBytes]
    have hb := hds.bounds.1
    have hlt := hd.lt
    have h0 := hd.nonneg
    have ev : (fval b R (d :: ds)).toNat = (limbsVal b d).toNat + 2 ^ R * (fval b R ds).toNat := by
      zify
      rw [Int.toNat_of_nonneg h.bounds.1, Int.toNat_of_nonneg h0, Int.toNat_of_nonneg hb]
      rfl
    have hlt' : (limbsVal b d).toNat < 2 ^ R := by zify; rw [Int.toNat_of_nonneg h0]; exact hlt
    rw [e, ih hds, toBytes_big f hd, List.length_cons, Nat.succ_mul, beBytes_add, ev, e256,
      Nat.add_mul_div_left _ _ (by positivity), Nat.div_eq_of_lt hlt', zero_add]
    congr 1
    rw [← beBytes_mod mb (_ + _), e256, Nat.add_mul_mod_self_left, Nat.mod_eq_of_lt hlt']

theorem canonD_loose (f : FOk C b n R) {d : Limbs C} (h : CanonD b n R d) : LimbsWithin (2 ^ b) d := by
  have hf := f.hf
  have dg : Digits b d := Rep.digits ⟨h.len, h.low, rfl⟩ h.nonneg (lt_of_lt_of_le h.lt (pow_le_pow_right₀ (by norm_num) (by omega)))
  exact dg.within (2 ^ b) le_rfl

/-- `dec(1)` of a canonical value -/
theorem dec_ff (f : FOk C b n R) {m : Nat} (hm : 0 < m) {x : FF C} (hl : x.length = m) (h : Canon b n R x) :
    FRep b n R m (dec b R x 1) (fval b R x - 1) := by
  have hf := f.hf
  have hn := f.hn
  have hC := f.ok.hC
  have hb := f.ok.hb
  match x, hl, h with
  | [], hl, _ => simp at hl; omega
  | d :: ds, hl, h =>
    have hd := h d (by simp)
    have hds : Canon b n R ds := fun z hz => h z (by simp [hz])
    have hr : Rep b n d (limbsVal b d) := ⟨hd.len, hd.low, rfl⟩
    have hp : (2 : Int) ^ R ≤ 2 ^ (b * n) := pow_le_pow_right₀ (by norm_num) (by omega)
    have hcap := cap_ge f.ok (n := n) (by omega)
    have hlt := hd.lt
    have h0 := hd.nonneg
    have hbn := two_pow_pos' (b * n)
    have hr' := hr.norm f.ok (by omega) (by linarith) (by linarith)
    have e : dec b R (d :: ds) 1 = norm b R (Big.dec b d 1 :: ds) := rfl
    have d' := hr'.digits h0 (by linarith)
    have hat : 0 ≤ (at' (Big.norm b d) 0).toInt ∧ (at' (Big.norm b d) 0).toInt < 2 ^ b := by
      have := digit_at d' 0 (by rw [hr'.len]; omega)
      rw [this]
      exact ⟨Int.emod_nonneg _ (two_pow_pos' b).ne', Int.emod_lt_of_pos _ (two_pow_pos' b)⟩
    have hb2 : (2 : Int) ^ b ≤ 2 ^ (C - 3) := pow_le_pow_right₀ (by norm_num) (by omega)
    have e32 : (2 : Int) ^ (C - 2) = 2 * 2 ^ (C - 3) := by rw [← pow_succ']; congr 1; omega
    have e31 : (2 : Int) ^ (C - 1) = 2 * 2 ^ (C - 2) := by rw [← pow_succ']; congr 1; omega
    have hbp := two_pow_pos' b
    have hb9 : (2 : Int) ^ 9 ≤ 2 ^ b := pow_le_pow_right₀ (by norm_num) hb
    have hv := (inc_val f.ok (by omega) d hr' 1 (by rw [abs_one]; norm_num at hb9; linarith) (by rw [abs_of_nonneg hat.1]; linarith)).2
    have o : (BitVec.ofInt C 1).toInt = 1 := toInt_ofInt_of (by omega) (by norm_num at hb9; linarith) (by norm_num at hb9; linarith)
    have hlo : LimbsWithin (wideB b) (Big.dec b d 1) ∧ (Big.dec b d 1).length = n := by
      unfold Big.dec
      simp only
      refine ⟨?_, by simp [hr'.len]⟩
      intro z hz
      have hw : (2 : Int) ^ b ≤ wideB b := by
        unfold wideB
        have : (4 : Int) * 2 ^ (b - 2) = 2 ^ b := by rw [show (4 : Int) = 2 ^ 2 by norm_num, ← pow_add]; congr 1; omega
        have := two_pow_pos' (b - 2)
        linarith
      rcases List.mem_or_eq_of_mem_set hz with hz | rfl
      · have := d' z hz
        constructor <;> linarith
      · rw [toInt_sub_of _ _ (by omega) (by rw [o]; linarith) (by rw [o]; linarith), o]
        constructor <;> linarith
    have hlo2 : Loose n (wideB b) (Big.dec b d 1 :: ds) := by
      intro z hz
      rcases List.mem_cons.1 hz with rfl | hz
      · exact ⟨hlo.2, hlo.1⟩
      · have hE' := f.epos
        exact ((hds.rng f).loose (by unfold wideB; linarith) (by unfold wideB; linarith)) z hz
    have nm := norm_frep f (Big.dec b d 1 :: ds) (by simp) hlo2
    rw [e]
    have hlen : (Big.dec b d 1 :: ds).length = m := by simpa using hl
    rw [hlen] at nm
    have ev : fval b R (Big.dec b d 1 :: ds) = fval b R (d :: ds) - 1 := by
      simp only [fval]; rw [hv]; ring
    rwa [ev] at nm

theorem setInt_ff (f : FOk C b n R) {m : Nat} (hm : 0 < m) (e : Int) (h0 : 0 ≤ e) (h1 : e < 2 ^ b) : FRep b n R m (setInt n m e : FF C) e := by
  obtain ⟨k, rfl⟩ : ∃ k, m = k + 1 := ⟨m - 1, by omega⟩
  have ee : (setInt n (k + 1) e : FF C) = newInt C n e :: zero n k := rfl
  have hn := f.hn
  have hr := newInt_rep (C := C) (n := n) f.ok (by omega) e h0 h1
  have hbR : b ≤ R := by
    have h1 := f.hR
    have h2 := Nat.div_add_mod R b
    rw [h1] at h2
    have : b * 1 ≤ b * (n - 1) := Nat.mul_le_mul_left _ (by omega)
    omega
  have hc : Canon b n R (setInt n (k + 1) e : FF C) := by
    rw [ee]
    intro d hd
    rcases List.mem_cons.1 hd with rfl | hd
    · exact ⟨hr.len, hr.low, by rw [hr.val]; exact h0, by rw [hr.val]; exact lt_of_lt_of_le h1 (pow_le_pow_right₀ (by norm_num) hbR)⟩
    · exact zero_canon f k d hd
  have := hc.frep (m := k + 1) (by rw [ee]; simp [zero])
  have ev : fval b R (setInt n (k + 1) e : FF C) = e := by
    rw [ee]; simp only [fval]; rw [zero_val, hr.val]; ring
  rwa [ev] at this

end Verif.Ff
