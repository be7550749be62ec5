import Verif.Nhs.Ntt
/- Helper lemmas: `ntt` and `intt` of `nhs.rs` compute the transform and its inverse, without overflow. -/
namespace Verif.Nhs
open Spec.Nhs (q negMul)

def zv (x : Poly) (p : Nat) : K := (((x p).toNat : Nat) : K)
def Bd (B : Nat) (x : Poly) : Prop := ∀ p < 1024, (x p).toNat ≤ B

theorem Bd.is {B : Nat} {x : Poly} (h : Bd B x) (hB : B < 2 ^ 31) {p : Nat} (hp : p < 1024) : Is (x p) (x p).toNat :=
  ⟨by have := h p hp; omega, rfl⟩

theorem mont {r t m : Nat} (h : r * 2 ^ 32 = t + m * q) : (r : K) = (t : K) * rinv := by
  have h1 := congrArg (fun n : Nat => (n : K)) h
  simp only [Nat.cast_add, Nat.cast_mul] at h1
  rw [rr_eq, ZMod.natCast_self] at h1
  have := rr_rinv
  linear_combination rinv * h1 - (r : K) * this

theorem rootW_is (n : Nat) (h : n < 1024) : Is (rootW n) (ROOTS.getD n 0) ∧ ROOTS.getD n 0 < q := by
  have h2 := (tables.2.1 n h).2.1
  exact ⟨is_ofNat (by unfold q at h2; omega), h2⟩

theorem irootW_is (n : Nat) (h : n < 1024) : Is (irootW n) (IROOTS.getD n 0) ∧ IROOTS.getD n 0 < q := by
  have h2 := (tables.2.1 n h).2.2
  exact ⟨is_ofNat (by unfold q at h2; omega), h2⟩

theorem two_prime : Is (2 * PRIME) (2 * q) := ⟨by decide, by decide⟩
theorem deg_prime : Is (BitVec.ofNat 32 DEGREE * PRIME) (1024 * q) := ⟨by decide, by decide⟩

theorem mul_root {y : I32} {u : Nat} (hy : Is y u) (hu : u ≤ 23 * q) {s : I32} {w : Nat} (hs : Is s w) (hw : w < q) :
    ∃ v, Is (modmul y s) v ∧ v ≤ q ∧ (v : K) = (u : K) * ((w : K) * rinv) := by
  obtain ⟨r, m, h1, h2, h3⟩ := modmul_is hy hs
  refine ⟨r, h1, ?_, ?_⟩
  · have h4 : u * w ≤ 23 * q * q := Nat.mul_le_mul hu hw.le
    obtain ⟨z, hz, h5⟩ : ∃ z, z ≤ 23 * q * q ∧ r * 2 ^ 32 = z + m * q := ⟨_, h4, h3⟩
    clear h3 h4
    rw [show q = 12289 from rfl] at hz h5 ⊢
    omega
  · rw [mont h3, Nat.cast_mul]; ring

theorem ctLayer_ok (k : Nat) (hk : k < 10) (B : Nat) (hB : B ≤ 23 * q) (x : Poly) (hx : Bd B x) :
    Bd (B + 2 * q) (ctLayer (2 ^ k) (2 ^ (9 - k)) x) ∧
    ∀ p < 1024, zv (ctLayer (2 ^ k) (2 ^ (9 - k)) x) p = fl (2 ^ k) (2 ^ (9 - k)) (zv x) p := by
  have hq : q = 12289 := rfl
  have key : ∀ p < 1024, (ctLayer (2 ^ k) (2 ^ (9 - k)) x p).toNat ≤ B + 2 * q ∧
      zv (ctLayer (2 ^ k) (2 ^ (9 - k)) x) p = fl (2 ^ k) (2 ^ (9 - k)) (zv x) p := by
    intro p hp
    obtain ⟨e, h1, h2'⟩ := layer_idx k hk p
    have e' : 2 ^ k * (2 * 2 ^ (9 - k)) = 1024 := by
      rw [← pow_succ', ← pow_add, show k + (9 - k + 1) = 10 by omega]; rfl
    have h2 := h2'.2 hp
    clear h2'
    generalize p / (2 * 2 ^ (9 - k)) = c at e h2
    generalize p % (2 * 2 ^ (9 - k)) = r at e h1
    have ht : 0 < 2 ^ (9 - k) := by positivity
    generalize 2 ^ (9 - k) = t at *
    have hc : c * (2 * t) + 2 * t ≤ 1024 := by
      calc c * (2 * t) + 2 * t = (c + 1) * (2 * t) := by ring
        _ ≤ 2 ^ k * (2 * t) := Nat.mul_le_mul_right _ h2
        _ = 1024 := e'
    rw [mul_comm c] at hc
    have hk2 : (2 : Nat) ^ k ≤ 2 ^ 9 := Nat.pow_le_pow_right (by decide) (by omega)
    obtain ⟨hs, hs2⟩ := rootW_is (2 ^ k + c) (by omega)
    subst e
    unfold zv
    rw [ctLayer_closed _ _ ht _ _ _ h1, if_pos h2]
    by_cases hr : r < t
    · rw [if_pos hr, fl_lo _ _ _ _ _ hr]
      have hu := hx.is (by omega) hp
      have hy := hx.is (by omega) (p := 2 * t * c + (r + t)) (by omega)
      obtain ⟨v, v1, v2, v3⟩ := mul_root hy (by have := hx (2 * t * c + (r + t)) (by omega); omega) hs hs2
      have hux := hx _ hp
      have h := hu.add v1 (by omega)
      refine ⟨by rw [h.nat]; omega, ?_⟩
      rw [h.nat, Nat.cast_add, v3]; unfold sig; ring
    · rw [if_neg hr]
      obtain ⟨r, rfl⟩ : ∃ r', r = r' + t := ⟨r - t, by omega⟩
      rw [fl_hi _ _ _ _ _ (by omega), Nat.add_sub_cancel]
      have hu := hx.is (by omega) (p := 2 * t * c + r) (by omega)
      have hy := hx.is (by omega) hp
      obtain ⟨v, v1, v2, v3⟩ := mul_root hy (by have := hx _ hp; omega) hs hs2
      have hux := hx (2 * t * c + r) (by omega)
      have h := (hu.add two_prime (by omega)).sub v1 (by omega)
      refine ⟨by rw [h.nat]; omega, ?_⟩
      rw [h.nat, Nat.cast_sub (by omega), Nat.cast_add, Nat.cast_mul, ZMod.natCast_self, v3]; unfold sig; ring
  exact ⟨fun p hp => (key p hp).1, fun p hp => (key p hp).2⟩

theorem fl_congr (k : Nat) (hk : k < 10) (X Y : Nat → K) (h : ∀ p < 1024, X p = Y p) (p : Nat) (hp : p < 1024) :
    fl (2 ^ k) (2 ^ (9 - k)) X p = fl (2 ^ k) (2 ^ (9 - k)) Y p := by
  obtain ⟨e, h1, h2'⟩ := layer_idx k hk p
  have e' : 2 ^ k * (2 * 2 ^ (9 - k)) = 1024 := by
    rw [← pow_succ', ← pow_add, show k + (9 - k + 1) = 10 by omega]; rfl
  have h2 := h2'.2 hp
  clear h2'
  generalize p / (2 * 2 ^ (9 - k)) = c at e h2
  generalize p % (2 * 2 ^ (9 - k)) = r at e h1
  generalize 2 ^ (9 - k) = t at *
  have hc : c * (2 * t) + 2 * t ≤ 1024 := by
    calc c * (2 * t) + 2 * t = (c + 1) * (2 * t) := by ring
      _ ≤ 2 ^ k * (2 * t) := Nat.mul_le_mul_right _ h2
      _ = 1024 := e'
  rw [mul_comm c] at hc
  subst e
  by_cases hr : r < t
  · rw [fl_lo _ _ _ _ _ hr, fl_lo _ _ _ _ _ hr, h _ hp, h _ (by omega)]
  · obtain ⟨r, rfl⟩ : ∃ r', r = r' + t := ⟨r - t, by omega⟩
    rw [fl_hi _ _ _ _ _ (by omega), fl_hi _ _ _ _ _ (by omega), h _ hp, h _ (by omega)]

/-- `ntt` on words below 2^31 -/
theorem ntt_ok (x : Poly) (hx : ∀ p < 1024, (x p).toNat < 2 ^ 31) :
    Bd (22 * q) (ntt x) ∧ ∀ p < 1024, zv (ntt x) p = rr * ev (zv x) 1024 (node (1024 + p)) := by
  have hq : q = 12289 := rfl
  have h0 : ∀ p < 1024, (toMont x p).toNat ≤ 2 * q ∧ zv (toMont x) p = rr * zv x p := by
    intro p hp
    unfold zv toMont
    rw [if_pos (show p < DEGREE from hp)]
    obtain ⟨r, m, h1, h2, h3⟩ := nres_is (⟨hx p hp, rfl⟩ : Is (x p) _)
    refine ⟨?_, ?_⟩
    · rw [h1.nat]
      have := hx p hp
      obtain ⟨z, hz, h5⟩ : ∃ z, z ≤ 2 ^ 31 * 0x1620 ∧ r * 2 ^ 32 = z + m * q := ⟨_, Nat.mul_le_mul_right _ this.le, h3⟩
      clear h3
      rw [hq] at h5 ⊢
      omega
    · rw [h1.nat, mont h3, Nat.cast_mul]
      have e : ((0x1620 : Nat) : K) = rr * rr := by
        unfold rr; rw [← Nat.cast_mul]; exact natCast_eq (by decide)
      have := rr_rinv
      rw [e]; linear_combination (((x p).toNat : Nat) : K) * rr * this
  have h := nttLoop_inv (fun k y => Bd (2 * q + k * (2 * q)) y ∧ ∀ p < 1024, zv y p = fiter (zv (toMont x)) k p) (fun k hk y hy => by
      obtain ⟨a, b⟩ := ctLayer_ok k hk _ (by rw [hq]; omega) y hy.1
      refine ⟨?_, fun p hp => ?_⟩
      · rw [show 2 * q + (k + 1) * (2 * q) = 2 * q + k * (2 * q) + 2 * q by ring]; exact a
      · rw [b p hp]; exact fl_congr k hk _ _ hy.2 p hp)
    10 0 1024 512 (toMont x) rfl (by decide) (fun _ => rfl) ⟨fun p hp => by have := (h0 p hp).1; omega, fun p _ => rfl⟩
  refine ⟨h.1, fun p hp => ?_⟩
  refine (h.2 p hp).trans ?_
  rw [(fiter_ten _ p hp).1, ← ev_smul]
  unfold ev
  exact Finset.sum_congr rfl fun r hr => by rw [(h0 r (Finset.mem_range.1 hr)).2]

theorem gs_mul {w : I32} {u : Nat} (hw : Is w u) (hu : u ≤ 2048 * q) {s : I32} {v : Nat} (hs : Is s v) (hv : v < q) :
    ∃ r, Is (modmul w s) r ∧ r ≤ q + 80 ∧ (r : K) = (u : K) * ((v : K) * rinv) := by
  obtain ⟨r, m, h1, h2, h3⟩ := modmul_is hw hs
  refine ⟨r, h1, ?_, ?_⟩
  · have h4 : u * v ≤ 2048 * q * q := Nat.mul_le_mul hu hv.le
    obtain ⟨z, hz, h5⟩ : ∃ z, z ≤ 2048 * q * q ∧ r * 2 ^ 32 = z + m * q := ⟨_, h4, h3⟩
    clear h3 h4
    rw [show q = 12289 from rfl] at hz h5 ⊢
    omega
  · rw [mont h3, Nat.cast_mul]; ring

/-- a layer of `intt` undoes a layer of `ntt` up to a factor two -/
theorem gsLayer_ok (k : Nat) (h1k : 1 ≤ k) (hk : k < 10) (B : Nat) (hB0 : q + 80 ≤ B) (hB : B ≤ 512 * q) (x : Poly) (hx : Bd B x)
    (X : Nat → K) (s : K) (hX : ∀ p < 1024, zv x p = s * fl (2 ^ k) (2 ^ (9 - k)) X p) :
    Bd (2 * B) (gsLayer (2 ^ k) (2 ^ (9 - k)) x) ∧ ∀ p < 1024, zv (gsLayer (2 ^ k) (2 ^ (9 - k)) x) p = 2 * s * X p := by
  have hq : q = 12289 := rfl
  have key : ∀ p < 1024, (gsLayer (2 ^ k) (2 ^ (9 - k)) x p).toNat ≤ 2 * B ∧
      zv (gsLayer (2 ^ k) (2 ^ (9 - k)) x) p = 2 * s * X p := by
    intro p hp
    obtain ⟨e, h1, h2'⟩ := layer_idx k hk p
    have e' : 2 ^ k * (2 * 2 ^ (9 - k)) = 1024 := by
      rw [← pow_succ', ← pow_add, show k + (9 - k + 1) = 10 by omega]; rfl
    have h2 := h2'.2 hp
    clear h2'
    generalize p / (2 * 2 ^ (9 - k)) = c at e h2
    generalize p % (2 * 2 ^ (9 - k)) = r at e h1
    have ht : 0 < 2 ^ (9 - k) := by positivity
    generalize 2 ^ (9 - k) = t at *
    have hc : c * (2 * t) + 2 * t ≤ 1024 := by
      calc c * (2 * t) + 2 * t = (c + 1) * (2 * t) := by ring
        _ ≤ 2 ^ k * (2 * t) := Nat.mul_le_mul_right _ h2
        _ = 1024 := e'
    rw [mul_comm c] at hc
    have hk2 : (2 : Nat) ^ k ≤ 2 ^ 9 := Nat.pow_le_pow_right (by decide) (by omega)
    obtain ⟨hs, hs2⟩ := irootW_is (2 ^ k + c) (by omega)
    have hsi := sig_iot (2 ^ k + c) (by omega)
    subst e
    unfold zv
    rw [gsLayer_closed _ _ ht _ _ _ h1, if_pos h2]
    by_cases hr : r < t
    · rw [if_pos hr]
      have hu := hx.is (by omega) hp
      have hp2 : 2 * t * c + (r + t) < 1024 := by omega
      have hy := hx.is (by omega) hp2
      have hux := hx _ hp
      have huy := hx _ hp2
      have h := hu.add hy (by omega)
      refine ⟨by rw [h.nat]; omega, ?_⟩
      have e1 := hX _ hp
      have e2 := hX _ hp2
      rw [fl_lo _ _ _ _ _ hr] at e1
      rw [fl_hi _ _ _ _ _ hr] at e2
      unfold zv at e1 e2
      rw [h.nat, Nat.cast_add, e1, e2]; ring
    · rw [if_neg hr]
      obtain ⟨r, rfl⟩ : ∃ r', r = r' + t := ⟨r - t, by omega⟩
      rw [Nat.add_sub_cancel]
      have hp2 : 2 * t * c + r < 1024 := by omega
      have hu := hx.is (by omega) hp2
      have hy := hx.is (by omega) hp
      have hux := hx _ hp2
      have huy := hx _ hp
      obtain ⟨v, v1, v2, v3⟩ := gs_mul ((hu.add deg_prime (by omega)).sub hy (by omega)) (by omega) hs hs2
      refine ⟨by rw [v1.nat]; omega, ?_⟩
      have e1 := hX _ hp2
      have e2 := hX _ hp
      rw [fl_lo _ _ _ _ _ (by omega)] at e1
      rw [fl_hi _ _ _ _ _ (by omega)] at e2
      unfold zv at e1 e2
      rw [v1.nat, v3, Nat.cast_sub (by omega), Nat.cast_add, Nat.cast_mul, ZMod.natCast_self, e1, e2]
      unfold iot at hsi
      linear_combination (2 * s * X (2 * t * c + (r + t))) * hsi
  exact ⟨fun p hp => (key p hp).1, fun p hp => (key p hp).2⟩

/-- `intt` on a transformed polynomial returns its coefficients, fully reduced -/
theorem intt_ok (x : Poly) (hx : Bd (q + 80) x) (C : Nat → K)
    (hX : ∀ p < 1024, zv x p = rr * ev C 1024 (node (1024 + p))) :
    ∀ p < 1024, ∃ r, Is (intt x p) r ∧ r < q ∧ (r : K) = C p := by
  have hq : q = 12289 := rfl
  set X : Nat → K := fun p => rr * C p with hXd
  have h9 : ∀ p < 1024, zv x p = fiter X 10 p := fun p hp => by
    rw [hX p hp, (fiter_ten X p hp).1, ← ev_smul]
  have h := inttLoop_inv (fun k y => 1 ≤ k → k ≤ 10 → Bd (2 ^ (10 - k) * (q + 80)) y ∧ ∀ p < 1024, zv y p = 2 ^ (10 - k) * fiter X k p)
    (fun k h1 hk y hy => by
      intro _ _
      obtain ⟨a, b⟩ := hy (by omega) (by omega)
      have hpw : (2 : Nat) ^ (10 - (k + 1)) ≤ 2 ^ 8 := Nat.pow_le_pow_right (by decide) (by omega)
      have hpp : 1 ≤ (2 : Nat) ^ (10 - (k + 1)) := Nat.one_le_two_pow
      have e : 10 - k = (10 - (k + 1)) + 1 := by omega
      obtain ⟨c, d⟩ := gsLayer_ok k h1 hk (2 ^ (10 - (k + 1)) * (q + 80)) (Nat.le_mul_of_pos_left _ hpp)
        (by calc 2 ^ (10 - (k + 1)) * (q + 80) ≤ 2 ^ 8 * (q + 80) := Nat.mul_le_mul_right _ hpw
              _ ≤ 512 * q := by rw [hq]; norm_num) y a (fiter X k) (2 ^ (10 - (k + 1))) b
      refine ⟨?_, fun p hp => ?_⟩
      · rw [e, pow_succ', Nat.mul_assoc]; exact c
      · rw [d p hp, e, pow_succ' (2 : K)])
    9 1024 1 x (by decide) (by decide) rfl (fun _ _ => ⟨by simpa using hx, fun p hp => by rw [h9 p hp]; norm_num⟩) (by decide) (by decide)
  obtain ⟨a, b⟩ := h
  have hd2 : DEGREE / 2 = 512 := rfl
  have hd : DEGREE = 1024 := rfl
  rw [show (2 : Nat) ^ 9 = 512 from rfl] at a b
  have ebd : 512 * (q + 80) = 512 * q + 40960 := by rw [Nat.mul_add]
  rw [ebd] at a
  have h2 : ∀ p < 1024, ∃ v, Is ((List.range 512).foldl (lastStep 512) (inttLoop DEGREE (DEGREE / 2) 1 x) p) v ∧ (v : K) = X p := by
    intro p hp
    rw [hd2, hd, last_closed]
    generalize inttLoop 1024 512 1 x = y at a b
    have einv : ((0xeab : Nat) : K) * 1024 = rr := by
      have : ((0xeab * 1024 : Nat) : K) = ((10952 : Nat) : K) := natCast_eq (by decide)
      rw [Nat.cast_mul] at this; exact this
    have einvpr : ((0x2c2a : Nat) : K) * 1024 = ((IROOTS.getD 1 0 : Nat) : K) := by
      have : ((0x2c2a * 1024 : Nat) : K) = ((IROOTS.getD 1 0 : Nat) : K) := natCast_eq (by decide +kernel)
      rw [Nat.cast_mul] at this; exact this
    have hsi := sig_iot 1 (by decide)
    have hrr := rr_rinv
    have lo : ∀ p < 512, fiter X 1 p = X p + sig 1 * X (p + 512) := fun p hp => by
      have := fl_lo 1 512 X 0 p hp
      simp only [Nat.mul_zero, Nat.zero_add, Nat.add_zero] at this
      exact this
    have hi : ∀ p < 512, fiter X 1 (p + 512) = X p - sig 1 * X (p + 512) := fun p hp => by
      have := fl_hi 1 512 X 0 p hp
      simp only [Nat.mul_zero, Nat.zero_add, Nat.add_zero] at this
      exact this
    by_cases hp5 : p < 512
    · rw [if_pos hp5]
      have a1 := a p hp
      have a2 := a (p + 512) (by omega)
      have hu := Bd.is a (by omega) hp
      have hy := Bd.is a (by omega) (p := p + 512) (by omega)
      obtain ⟨v, v1, v2, v3⟩ := gs_mul (hu.add hy (by omega)) (by omega) (show Is INV 0xeab from ⟨by decide, by decide⟩) (by decide)
      refine ⟨v, v1, ?_⟩
      have e1 := b p hp
      have e2 := b (p + 512) (by omega)
      rw [lo p hp5] at e1
      rw [hi p hp5] at e2
      unfold zv at e1 e2
      rw [v3, Nat.cast_add, e1, e2]
      norm_num
      linear_combination (X p * rinv) * einv + X p * hrr
    · rw [if_neg hp5, if_pos hp]
      obtain ⟨r, rfl⟩ : ∃ r', p = r' + 512 := ⟨p - 512, by omega⟩
      rw [Nat.add_sub_cancel]
      have a1 := a r (by omega)
      have a2 := a (r + 512) hp
      have hu := Bd.is a (by omega) (p := r) (by omega)
      have hy := Bd.is a (by omega) hp
      obtain ⟨v, v1, v2, v3⟩ := gs_mul ((hu.add deg_prime (by omega)).sub hy (by omega)) (by omega)
        (show Is INVPR 0x2c2a from ⟨by decide, by decide⟩) (by decide)
      refine ⟨v, v1, ?_⟩
      have e1 := b r (by omega)
      have e2 := b (r + 512) hp
      rw [lo r (by omega)] at e1
      rw [hi r (by omega)] at e2
      unfold zv at e1 e2
      unfold iot at hsi
      rw [v3, Nat.cast_sub (by omega), Nat.cast_add, Nat.cast_mul, ZMod.natCast_self, e1, e2]
      norm_num
      linear_combination (sig 1 * X (r + 512) * rinv) * einvpr + X (r + 512) * hsi
  intro p hp
  obtain ⟨v, v1, v2⟩ := h2 p hp
  obtain ⟨r, r1, r2, r3⟩ := fromMont_is v1
  refine ⟨r, ?_, r2, ?_⟩
  · unfold intt
    rw [if_pos (show p < DEGREE from hp)]
    exact r1
  · have e := natCast_eq r3
    rw [Nat.cast_mul, rr_eq, v2, hXd] at e
    have := rr_rinv
    simp only at e
    linear_combination rinv * e - ((r : K) - C p) * this

/-- the product computed through the transform is the product modulo x^1024 + 1 -/
theorem mul_ok (A B : Nat → K) (i : Nat) (hi : i < 1024) :
    ev (negMul A B) 1024 (node (1024 + i)) = ev A 1024 (node (1024 + i)) * ev B 1024 (node (1024 + i)) :=
  ev_negMul A B _ (fiter_ten A i hi).2

end Verif.Nhs
