import Verif.Bilin.Right
/-
The optimal ate pairing is bilinear.
-/
namespace Verif.Ate
set_option linter.unusedSectionVars false
open Verif.Big Verif.Fp Verif.Rom Verif.Curve Verif.Tower Verif.Ecp Verif.Ecp2 Verif.Pair Verif.Gt Spec WeierstrassCurve

section
variable {A G : Type*} [AddCommGroup A] [CommGroup G]

theorem coprime_one {G : Type*} [CommGroup G] {r : Nat} (hr : r.Prime) (h3 : 3 < r) {c : G} (h6 : c ^ 6 = 1) (ho : c ^ r = 1) : c = 1 := by
  have h1 : orderOf c ∣ Nat.gcd 6 r := Nat.dvd_gcd (orderOf_dvd_of_pow_eq_one h6) (orderOf_dvd_of_pow_eq_one ho)
  have hc : Nat.Coprime 6 r := by
    rw [Nat.coprime_comm, Nat.Prime.coprime_iff_not_dvd hr]
    intro e
    have := Nat.le_of_dvd (by norm_num) e
    have h5 : r = 4 ∨ r = 5 ∨ r = 6 := by omega
    rcases h5 with rfl | rfl | rfl <;> revert e hr <;> decide
  rw [hc, Nat.dvd_one] at h1
  exact orderOf_eq_one_iff.1 h1

/-- a function on a group of exponent `r` which is one on triples of nonzero elements of sum zero is a homomorphism -/
theorem add_of_trip {r : Nat} (hr : r.Prime) (h3 : 3 < r) (H : AddSubgroup A) (ht : ∀ a ∈ H, r • a = 0) (f : A → G) (f0 : f 0 = 1) (fr : ∀ a ∈ H, f a ^ r = 1)
    (tr : ∀ a ∈ H, ∀ b ∈ H, ∀ c ∈ H, a ≠ 0 → b ≠ 0 → c ≠ 0 → a + b + c = 0 → f a * f b * f c = 1) : ∀ a ∈ H, ∀ b ∈ H, f (a + b) = f a * f b := by
  have nz : ∀ a ∈ H, a ≠ 0 → ∀ n : Nat, 0 < n → n < r → n • a ≠ 0 := by
    intro a ha h n h0 hn e
    have h1 : addOrderOf a ∣ Nat.gcd n r := Nat.dvd_gcd (addOrderOf_dvd_of_nsmul_eq_zero e) (addOrderOf_dvd_of_nsmul_eq_zero (ht a ha))
    have hc : Nat.Coprime n r := Nat.Coprime.symm ((Nat.Prime.coprime_iff_not_dvd hr).2 fun d => by have := Nat.le_of_dvd h0 d; omega)
    rw [hc, Nat.dvd_one, AddMonoid.addOrderOf_eq_one_iff] at h1
    exact h h1
  have g1 : ∀ a ∈ H, f a * f (-a) = 1 := by
    intro a ha
    by_cases h : a = 0
    · subst h; rw [neg_zero, f0, one_mul]
    have m : ∀ n : Nat, n • a ∈ H := fun n => H.nsmul_mem ha n
    have n1 := nz a ha h 1 (by omega) (by omega)
    have n2 := nz a ha h 2 (by omega) (by omega)
    have n3 := nz a ha h 3 (by omega) (by omega)
    have n4 : 4 • a ≠ 0 := by
      by_cases h4 : r = 4
      · subst h4; exact absurd hr (by decide)
      · exact nz a ha h 4 (by omega) (by omega)
    have N : ∀ n : Nat, n • a ≠ 0 → -(n • a) ≠ 0 := fun n hn => neg_ne_zero.2 hn
    have M : ∀ n : Nat, -(n • a) ∈ H := fun n => H.neg_mem (m n)
    have key : ∀ i j : Nat, i • a ≠ 0 → j • a ≠ 0 → (i + j) • a ≠ 0 → (f (i • a) * f (-(i • a))) * (f (j • a) * f (-(j • a))) * (f ((i + j) • a) * f (-((i + j) • a))) = 1 := by
      intro i j hi hj hij
      have t1 := tr _ (m i) _ (m j) _ (M (i + j)) hi hj (N _ hij) (by rw [add_nsmul]; abel)
      have t2 := tr _ (M i) _ (M j) _ (m (i + j)) (N _ hi) (N _ hj) hij (by rw [add_nsmul]; abel)
      have t3 : f (i • a) * f (-(i • a)) * (f (j • a) * f (-(j • a))) * (f ((i + j) • a) * f (-((i + j) • a))) =
        (f (i • a) * f (j • a) * f (-((i + j) • a))) * (f (-(i • a)) * f (-(j • a)) * f ((i + j) • a)) := by
        generalize f (i • a) = x1
        generalize f (-(i • a)) = x2
        generalize f (j • a) = x3
        generalize f (-(j • a)) = x4
        generalize f ((i + j) • a) = x5
        generalize f (-((i + j) • a)) = x6
        simp only [mul_assoc, mul_comm, mul_left_comm]
      rw [t3, t1, t2, one_mul]
    have k11 := key 1 1 n1 n1 n2
    have k12 := key 1 2 n1 n2 n3
    have k22 := key 2 2 n2 n2 n4
    have k13 := key 1 3 n1 n3 n4
    have hc : (f (1 • a) * f (-(1 • a))) ^ r = 1 := by rw [mul_pow, fr _ (m 1), fr _ (M 1), one_mul]
    have hd : f a * f (-a) = f (1 • a) * f (-(1 • a)) := by rw [one_nsmul]
    rw [hd]
    norm_num only at k11 k12 k22 k13
    generalize f (1 • a) * f (-(1 • a)) = c at *
    generalize f (2 • a) * f (-(2 • a)) = c2 at *
    generalize f (3 • a) * f (-(3 • a)) = c3 at *
    generalize f (4 • a) * f (-(4 • a)) = c4 at *
    refine coprime_one hr h3 ?_ hc
    have e2 : c2 = (c * c)⁻¹ := (inv_eq_of_mul_eq_one_right k11).symm
    have e3 : c3 = (c * c2)⁻¹ := (inv_eq_of_mul_eq_one_right k12).symm
    have e4 : c4 = (c2 * c2)⁻¹ := (inv_eq_of_mul_eq_one_right k22).symm
    rw [e4, e3, e2] at k13
    have e5 : c * (c * (c * c)⁻¹)⁻¹ * ((c * c)⁻¹ * (c * c)⁻¹)⁻¹ = c ^ 6 := by group
    rw [← e5]; exact k13
  have neg : ∀ a ∈ H, f (-a) = (f a)⁻¹ := fun a ha => (inv_eq_of_mul_eq_one_right (g1 a ha)).symm
  intro a ha b hb
  by_cases h1 : a = 0
  · subst h1; rw [zero_add, f0, one_mul]
  by_cases h2 : b = 0
  · subst h2; rw [add_zero, f0, mul_one]
  by_cases hs : a + b = 0
  · have : b = -a := (neg_eq_of_add_eq_zero_right hs).symm
    rw [hs, f0, this, g1 a ha]
  · have := tr a ha b hb (-(a + b)) (H.neg_mem (H.add_mem ha hb)) h1 h2 (neg_ne_zero.2 hs) (add_neg_cancel _)
    rw [neg _ (H.add_mem ha hb), mul_inv_eq_one] at this
    exact this.symm
end

section
variable {A M : Type*} [AddCommGroup A] [CommRing M]

/-- the same with values in a ring, the triples given as families -/
theorem add_of_fam {r : Nat} (hr : r.Prime) (h3 : 3 < r) (H : AddSubgroup A) (ht : ∀ a ∈ H, r • a = 0) (f : A → Mˣ) (f0 : f 0 = 1) (fr : ∀ a ∈ H, f a ^ r = 1)
    (tr : ∀ e : Fin 3 → A, (∀ i, e i ∈ H) → (∀ i, e i ≠ 0) → e 0 + e 1 + e 2 = 0 → ∏ i, f (e i) = 1) : ∀ a ∈ H, ∀ b ∈ H, (f (a + b) : M) = (f a : M) * (f b : M) := by
  intro a ha b hb
  rw [add_of_trip hr h3 H ht f f0 fr ?_ a ha b hb, Units.val_mul]
  intro a ha b hb c hc a0 b0 c0 hs
  have := tr ![a, b, c] (by intro i; fin_cases i <;> assumption) (by intro i; fin_cases i <;> assumption) hs
  rwa [Fin.prod_univ_three] at this
end

variable {C : Nat} {K : GlsRom C} [hp : Fact K.pair.rom.p.Prime] [h4 : Fact (K.pair.rom.p % 4 = 3)] {lam : Int}

theorem miller_zero (q : ZMod K.pair.rom.p × ZMod K.pair.rom.p) (ds : List Int) : millerF K.pair q 0 ds (0, 1) = (0, 1) := by
  unfold millerF
  induction ds with
  | nil => rfl
  | cons d ds ih =>
    have e : millerRound K.pair q 0 (0, 1) d = (0, 1) := by
      unfold millerRound
      dsimp only
      rw [_root_.zsmul_zero, add_zero, add_zero]
      have t1 : tangent K.pair q 0 = 1 := rfl
      have t2 : chord K.pair q 0 0 = 1 := rfl
      rw [t1, t2, ite_self, one_pow, one_mul, one_mul]
    rw [List.foldl_cons, e, ih]

theorem ateFn_zero (h6 : 6 ∣ K.pair.rom.p - 1) (ds : List Int) (q : ZMod K.pair.rom.p × ZMod K.pair.rom.p) : ateFn K h6 ds 0 q = 1 := by
  unfold ateFn
  rw [miller_zero]
  dsimp only
  rw [one_pow, ite_self, one_mul, neg_zero, ite_self]
  unfold lastLines
  rw [map_zero]
  have t2 : chord K.pair q 0 0 = 1 := rfl
  rw [map_zero, add_zero, neg_zero, t2, one_mul, ite_self]

/-- the pairing, as a unit -/
noncomputable def evU (t : TowerPrime K.pair.rom.p) (h6 : 6 ∣ K.pair.rom.p - 1) (ds : List Int) (S : (curve2 K.pair).Point) : (Ecp.curve K.pair.rom).Point → (F12 K.pair.rom.p)ˣ
  | .zero => 1
  | .some x y _ => ev K t (ateFn K h6 ds S (x, y))

theorem evU_some (t : TowerPrime K.pair.rom.p) (h6 : 6 ∣ K.pair.rom.p - 1) (ds : List Int) (S : (curve2 K.pair).Point) (x y : ZMod K.pair.rom.p) (h) :
    evU t h6 ds S (.some x y h) = ev K t (ateFn K h6 ds S (x, y)) := rfl

theorem ateFn_ne (t : TowerPrime K.pair.rom.p) (h6 : 6 ∣ K.pair.rom.p - 1) {q : ZMod K.pair.rom.p × ZMod K.pair.rom.p} (hq : q.2 ≠ 0) (ds : List Int) (S : (curve2 K.pair).Point) : ateFn K h6 ds S q ≠ 0 := by
  unfold ateFn
  dsimp only
  have m := miller_ne K.pair t hq S ds (S, 1) one_ne_zero
  refine f12_mul_ne t ?_ ?_
  · split_ifs
    · exact f12_pow_ne t m _
    · exact m
  · split_ifs
    · exact last_ne t h6 hq _ _
    · exact last_ne t h6 hq _ _
    · exact one_ne_zero

theorem evU_val (hf : PairFacts K lam) (ds : List Int) (S : (curve2 K.pair).Point) (U : (Ecp.curve K.pair.rom).Point) : (evU hf.pr hf.fr.six ds S U : F12 K.pair.rom.p) = optAte K hf.fr.six ds S U := by
  rcases U with _ | ⟨x, y, h⟩
  · rfl
  · have hy : y ≠ 0 := Curve.y_ne hf.g1.wc.noTwo h.1
    unfold evU optAte
    dsimp only
    rw [ev_val hf.pr (ateFn_ne hf.pr hf.fr.six hy ds S)]

/-- the points of order `r` of the twist on which the Frobenius endomorphism is multiplication by `p` -/
noncomputable def G2sub (K : GlsRom C) [Fact K.pair.rom.p.Prime] [Fact (K.pair.rom.p % 4 = 3)] (h6 : 6 ∣ K.pair.rom.p - 1) : AddSubgroup (curve2 K.pair).Point where
  carrier := {S | rN K.pair • S = 0 ∧ psi h6 S = (K.pair.rom.p : Int) • S}
  zero_mem' := ⟨nsmul_zero _, by rw [map_zero, _root_.zsmul_zero]⟩
  add_mem' := fun {a b} ha hb => ⟨by rw [nsmul_add, ha.1, hb.1, add_zero], by rw [map_add, zsmul_add, ha.2, hb.2]⟩
  neg_mem' := fun {a} ha => ⟨by rw [neg_nsmul, ha.1, neg_zero], by rw [map_neg, zsmul_neg, ha.2]⟩

/-- the points of order `r` of the curve -/
noncomputable def G1sub (K : GlsRom C) [Fact K.pair.rom.p.Prime] : AddSubgroup (Ecp.curve K.pair.rom).Point where
  carrier := {U | rN K.pair • U = 0}
  zero_mem' := nsmul_zero _
  add_mem' := fun {a b} ha hb => by
    show rN K.pair • (a + b) = 0
    rw [nsmul_add, show rN K.pair • a = 0 from ha, show rN K.pair • b = 0 from hb, add_zero]
  neg_mem' := fun {a} ha => by
    show rN K.pair • (-a) = 0
    rw [neg_nsmul, show rN K.pair • a = 0 from ha, neg_zero]

theorem evU_ord (hf : PairFacts K lam) (hdv : rN K.pair ∣ K.pair.rom.p ^ 4 - K.pair.rom.p ^ 2 + 1) (ds : List Int) (S : (curve2 K.pair).Point) (U : (Ecp.curve K.pair.rom).Point) :
    evU hf.pr hf.fr.six ds S U ^ rN K.pair = 1 := by
  rcases U with _ | ⟨x, y, h⟩
  · exact one_pow _
  · exact ev_ord hf.pr hdv _

theorem evU_zero (hf : PairFacts K lam) (ds : List Int) (U : (Ecp.curve K.pair.rom).Point) : evU hf.pr hf.fr.six ds 0 U = 1 := by
  rcases U with _ | ⟨x, y, h⟩
  · rfl
  · unfold evU
    dsimp only
    rw [ateFn_zero, ev_one]

section
variable (hf : PairFacts K lam) (hdv : rN K.pair ∣ K.pair.rom.p ^ 4 - K.pair.rom.p ^ 2 + 1) (h3 : 3 < rN K.pair) (hd : ∀ d ∈ digs K (lbits K - 2), d = 0 ∨ d = 1 ∨ d = -1)
  (hb : optB K = true) (hc : bilB K = true)
include hf hdv h3 hd hb hc

/-- additivity in the point of the twist -/
theorem evU_left (U : (Ecp.curve K.pair.rom).Point) {S S' : (curve2 K.pair).Point} (hS : S ∈ G2sub K hf.fr.six) (hS' : S' ∈ G2sub K hf.fr.six) :
    optAte K hf.fr.six (digs K (lbits K - 2)) (S + S') U = optAte K hf.fr.six (digs K (lbits K - 2)) S U * optAte K hf.fr.six (digs K (lbits K - 2)) S' U := by
  have hA : (K.pair.rom.a : ZMod K.pair.rom.p) = 0 := by rw [hf.g1.cru.a]; exact Int.cast_zero
  rw [← evU_val hf, ← evU_val hf, ← evU_val hf]
  refine add_of_fam hf.prime h3 (G2sub K hf.fr.six) (fun a ha => ha.1) (fun S => evU hf.pr hf.fr.six (digs K (lbits K - 2)) S U) (evU_zero hf _ _) (fun a _ => evU_ord hf hdv _ a _) ?_ S hS S' hS'
  intro e he e0 hs
  rcases U with _ | ⟨x, y, h⟩
  · exact Finset.prod_eq_one fun i _ => rfl
  have hy : y ≠ 0 := Curve.y_ne hf.g1.wc.noTwo h.1
  have hxy : y ^ 2 = x ^ 3 + Ecp.Bcoef K.pair.rom := by
    have := Curve.short_eq.1 h.1
    rw [hA, zero_mul, add_zero] at this
    exact this
  simp only [evU_some]
  exact trip_one hdv hf.prime h3 hd hb hc (left_trip hf.pr hdv hf.prime h3 hf.fr.six (q := (x, y)) hy hxy (S := e) e0 (fun i => (he i).1) (fun i => (he i).2) hs)

/-- additivity in the point of the curve -/
theorem evU_right {S : (curve2 K.pair).Point} (hS : S ∈ G2sub K hf.fr.six) {U U' : (Ecp.curve K.pair.rom).Point} (hU : U ∈ G1sub K) (hU' : U' ∈ G1sub K) :
    optAte K hf.fr.six (digs K (lbits K - 2)) S (U + U') = optAte K hf.fr.six (digs K (lbits K - 2)) S U * optAte K hf.fr.six (digs K (lbits K - 2)) S U' := by
  have hA : (K.pair.rom.a : ZMod K.pair.rom.p) = 0 := by rw [hf.g1.cru.a]; exact Int.cast_zero
  rw [← evU_val hf, ← evU_val hf, ← evU_val hf]
  refine add_of_fam hf.prime h3 (G1sub K) (fun a ha => ha) (fun U => evU hf.pr hf.fr.six (digs K (lbits K - 2)) S U) rfl (fun a _ => evU_ord hf hdv _ _ a) ?_ U hU U' hU'
  intro e _ e0 hs
  by_cases h0 : S = 0
  · subst h0
    exact Finset.prod_eq_one fun i _ => evU_zero hf _ _
  have hq : ∀ i, ∃ (q : ZMod K.pair.rom.p × ZMod K.pair.rom.p) (h : _), e i = .some q.1 q.2 h := by
    intro i
    rcases hi : e i with _ | ⟨x, y, h⟩
    · exact absurd hi (e0 i)
    · exact ⟨(x, y), h, rfl⟩
  choose q hn hq using hq
  rw [hq 0, hq 1, hq 2] at hs
  have hcol := vieta (eq_neg_of_add_eq_zero_left hs)
  generalize (Curve.short (K.pair.rom.a : ZMod K.pair.rom.p) (Ecp.Bcoef K.pair.rom)).slope (q 0).1 (q 1).1 (q 0).2 (q 1).2 = l at hcol
  rw [hA] at hcol
  simp only [hq, evU_some]
  exact trip_one hdv hf.prime h3 hd hb hc (right_trip hf.pr hdv hf.prime h3 hf.tw hf.fr.six (q := q) hcol (fun i => Curve.y_ne hf.g1.wc.noTwo (hn i).1) h0 hS.1 hS.2)
end
end Verif.Ate
