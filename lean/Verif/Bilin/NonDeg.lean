import Verif.Bilin.NonDegN
import Verif.Bilin.Bilinear
import Verif.Bls.RealEx
/-
Soundness of the computation of Bilin/NonDegN.lean.
-/
namespace Verif.Ate
set_option linter.unusedSectionVars false
open Verif.Big Verif.Fp Verif.Rom Verif.Curve Verif.Tower Verif.Ecp Verif.Ecp2 Verif.Pair Verif.Gt Spec WeierstrassCurve

section
variable {p : Nat} [hp : Fact p.Prime] [h4 : Fact (p % 4 = 3)]

theorem cast_line (mt : Bool) (u v w : N2) : cast12 p (lineN mt u v w) = lineVal mt (castN2 p u) (castN2 p v) (castN2 p w) := by
  unfold lineN lineVal
  cases mt
  · simp only [Bool.false_eq_true, if_false, cast12, cast4, castN2_00]; rfl
  · simp only [if_true, cast12, cast4, castN2_00]; rfl

theorem cast_n0 (n : Nat) : castN2 p (n, 0) = ⟨(n : ZMod p), 0⟩ := by
  unfold castN2
  dsimp only
  rw [Nat.cast_zero]

theorem cast_num (n : Nat) : castN2 p (n, 0) = ((n : Nat) : F2 p) := by
  rw [cast_n0]
  ext
  · simp
  · simp

theorem cast_xiIf (mt : Bool) (m : N2) : castN2 p (if mt = true then xiP p m else m) = castN2 p m * (if mt = true then xi p else 1) := by
  cases mt
  · simp only [Bool.false_eq_true, if_false, mul_one]
  · simp only [if_true, cast_xi, mul_comm]

theorem lineVal_smul (mt : Bool) (c u v w : F2 p) : lineVal mt (c * u) (c * v) (c * w) = emb2 c * lineVal mt u v w := by
  unfold lineVal emb2
  cases mt
  · simp only [Bool.false_eq_true, if_false]
    ext <;> simp
  · simp only [if_true]
    ext <;> simp
end

section
variable {C : Nat} {K : PairRom C} [hp : Fact K.rom.p.Prime] [h4 : Fact (K.rom.p % 4 = 3)]

theorem dblN_val {b3 : N2} (hb : castN2 K.rom.p b3 = 3 * Btw K) (A : Tri) (x y : Nat) :
    cast12 K.rom.p (dblN K.rom.p K.mtype b3 A x y) = dblVal K (castT K.rom.p A) (x : ZMod K.rom.p) (y : ZMod K.rom.p) := by
  unfold dblN dblVal castT
  dsimp only
  rw [cast_line]
  simp only [cast_xiIf, castN2_sub, castN2_mul, castN2_00, hb, ← cast_n0]
  rw [cast_num 4, cast_num 2, cast_num 6]
  push_cast
  congr 1 <;> ring

theorem addN_val (A B : Tri) (x y : Nat) (hz : castN2 K.rom.p B.2.2 ≠ 0) :
    cast12 K.rom.p (addN K.rom.p K.mtype A B x y) = emb2 (castN2 K.rom.p B.2.2 ^ 2) *
      addVal K (castT K.rom.p A) ⟨castN2 K.rom.p B.1 / castN2 K.rom.p B.2.2, castN2 K.rom.p B.2.1 / castN2 K.rom.p B.2.2, 1⟩ (x : ZMod K.rom.p) (y : ZMod K.rom.p) := by
  unfold addN addVal castT
  simp only [force2_eq]
  rw [cast_line, ← lineVal_smul]
  simp only [cast_xiIf, castN2_sub, castN2_mul, castN2_00, ← cast_n0]
  congr 1 <;> field_simp <;> ring

theorem dblN_line (h : TCurve K) (t : TowerPrime K.rom.p) {A : Tri} {T : (curve2 K).Point} (hA : Denotes (castT K.rom.p A) T) (x y : Nat) :
    ∃ c, Kill K.rom.p c ∧ cast12 K.rom.p (dblN K.rom.p K.mtype (b3N K) A x y) = c * tangent K ((x : ZMod K.rom.p), (y : ZMod K.rom.p)) T := by
  rw [dblN_val (b3N_ok h)]
  exact dbl_line h t hA ((x : ZMod K.rom.p), (y : ZMod K.rom.p))

theorem aff_denotes {B : Tri} {S : (curve2 K).Point} (hB : Denotes (castT K.rom.p B) S) (hS : S ≠ 0) :
    Denotes (⟨castN2 K.rom.p B.1 / castN2 K.rom.p B.2.2, castN2 K.rom.p B.2.1 / castN2 K.rom.p B.2.2, 1⟩ : Proj (F2 K.rom.p)) S := by
  rcases S with _ | ⟨X, Y, hh⟩
  · exact absurd rfl hS
  · obtain ⟨hz, b2, b3⟩ := hB
    unfold castT at hz b2 b3
    dsimp only at hz b2 b3
    refine ⟨one_ne_zero, ?_, ?_⟩
    · dsimp only
      rw [b2, mul_one, mul_div_cancel_right₀ _ hz]
    · dsimp only
      rw [b3, mul_one, mul_div_cancel_right₀ _ hz]

theorem addN_line (h : TCurve K) (t : TowerPrime K.rom.p) {A B : Tri} {T S : (curve2 K).Point} (hA : Denotes (castT K.rom.p A) T) (hB : Denotes (castT K.rom.p B) S)
    (ho : T ≠ 0 ∧ S ≠ 0 ∧ T ≠ S ∧ T ≠ -S) (x y : Nat) :
    ∃ c, Kill K.rom.p c ∧ cast12 K.rom.p (addN K.rom.p K.mtype A B x y) = c * chord K ((x : ZMod K.rom.p), (y : ZMod K.rom.p)) T S := by
  have hz : castN2 K.rom.p B.2.2 ≠ 0 := by
    rcases S with _ | ⟨X, Y, hh⟩
    · exact absurd rfl ho.2.1
    · exact hB.1
  obtain ⟨c, hc, e⟩ := add_line h t hA (aff_denotes hB ho.2.1) (fun _ => rfl) (q := ((x : ZMod K.rom.p), (y : ZMod K.rom.p))) (Or.inr ho)
  dsimp only at e
  refine ⟨emb2 (castN2 K.rom.p B.2.2 ^ 2) * c, Kill.mul t (kill2 t (pow_ne_zero 2 hz)) hc, ?_⟩
  rw [addN_val A B x y hz, e, mul_assoc]

theorem addT_denotes (h : TCurve K) {A B : Tri} {T S : (curve2 K).Point} (hA : Denotes (castT K.rom.p A) T) (hB : Denotes (castT K.rom.p B) S) :
    Denotes (castT K.rom.p (addT K.rom.p (b3N K) A B)) (T + S) := by
  rw [addT_eq (b3N_ok h)]
  exact rcb_add h.noTwo (two_ne2 h) hA hB

theorem negT_denotes {A : Tri} {T : (curve2 K).Point} (hA : Denotes (castT K.rom.p A) T) : Denotes (castT K.rom.p (negT K.rom.p A)) (-T) := by
  have e : castT K.rom.p (negT K.rom.p A) = ⟨(castT K.rom.p A).x, -(castT K.rom.p A).y, (castT K.rom.p A).z⟩ := by
    unfold castT negT neg2
    dsimp only
    rw [castN2_sub, castN2_00, zero_sub]
  rw [e]
  exact Denotes.neg' hA

theorem mill_sound (h : TCurve K) (t : TowerPrime K.rom.p) {P : Tri} {S : (curve2 K).Point} (hP : Denotes (castT K.rom.p P) S) (h0 : S ≠ 0) (x y : Nat) (ds : List Int) :
    ∀ (T : Tri) (f : N12) (s : (curve2 K).Point × F12 K.rom.p) (c : F12 K.rom.p), (∀ d ∈ ds, d = 0 ∨ d = 1 ∨ d = -1) → LoopOk K (x : ZMod K.rom.p) S ds s.1 →
    Denotes (castT K.rom.p T) s.1 → Kill K.rom.p c → cast12 K.rom.p f = c * s.2 →
    Denotes (castT K.rom.p (millN K.rom.p K.mtype (b3N K) P (negT K.rom.p P) x y ds T f).1) (millerF K ((x : ZMod K.rom.p), (y : ZMod K.rom.p)) S ds s).1 ∧
    ∃ c, Kill K.rom.p c ∧ cast12 K.rom.p (millN K.rom.p K.mtype (b3N K) P (negT K.rom.p P) x y ds T f).2 = c * (millerF K ((x : ZMod K.rom.p), (y : ZMod K.rom.p)) S ds s).2 := by
  unfold millerF
  induction ds with
  | nil => intro T f s c _ _ h1 h2 h3; exact ⟨h1, c, h2, h3⟩
  | cons d ds ih =>
    intro T f s c hd hl h1 h2 h3
    obtain ⟨l1, l2⟩ := hl
    have hd0 := hd d (by simp)
    have hd' : ∀ d ∈ ds, d = 0 ∨ d = 1 ∨ d = -1 := fun d' hm => hd d' (by simp [hm])
    obtain ⟨c1, k1, e1⟩ := dblN_line h t h1 x y
    have T2 := addT_denotes h h1 h1
    rw [List.foldl_cons]
    simp only [millN, force12_eq, forceT_eq]
    by_cases hz : d = 0
    · rw [if_pos hz]
      refine ih _ _ (millerRound K ((x : ZMod K.rom.p), (y : ZMod K.rom.p)) S s d) (c ^ 2 * c1) hd' l2 ?_ (Kill.mul t (h2.pow t 2) k1) ?_
      · unfold millerRound
        dsimp only
        rw [hz, zero_zsmul, add_zero]; exact T2
      · unfold millerRound
        dsimp only
        rw [if_pos hz, cast12_mul, cast12_mul, e1, h3]
        generalize tangent K ((x : ZMod K.rom.p), (y : ZMod K.rom.p)) s.1 = u
        generalize s.2 = v
        linear_combination (0 : F12 K.rom.p)
    · rw [if_neg hz]
      have hQ : Denotes (castT K.rom.p (if d = 1 then P else negT K.rom.p P)) (d • S) := by
        rcases hd0 with h | h | h
        · exact absurd h hz
        · rw [if_pos h, h, one_zsmul]; exact hP
        · rw [if_neg (by omega), h, neg_zsmul, one_zsmul]; exact negT_denotes hP
      have ho : s.1 + s.1 ≠ 0 ∧ d • S ≠ 0 ∧ s.1 + s.1 ≠ d • S ∧ s.1 + s.1 ≠ -(d • S) := by
        rcases l1 hz with ⟨_, b, _⟩ | h
        · exfalso
          rcases hd0 with h | h | h
          · exact hz h
          · rw [h, one_zsmul] at b; exact h0 b
          · rw [h, neg_zsmul, one_zsmul, neg_eq_zero] at b; exact h0 b
        · exact h
      obtain ⟨c2, k2, e2⟩ := addN_line h t T2 hQ ho x y
      refine ih _ _ (millerRound K ((x : ZMod K.rom.p), (y : ZMod K.rom.p)) S s d) (c ^ 2 * c1 * c2) hd' l2 ?_ (Kill.mul t (Kill.mul t (h2.pow t 2) k1) k2) ?_
      · exact addT_denotes h T2 hQ
      · unfold millerRound
        dsimp only
        rw [if_neg hz, cast12_mul, cast12_mul, cast12_mul, e1, e2, h3]
        generalize tangent K ((x : ZMod K.rom.p), (y : ZMod K.rom.p)) s.1 = u
        generalize chord K ((x : ZMod K.rom.p), (y : ZMod K.rom.p)) (s.1 + s.1) (d • S) = w
        generalize s.2 = v
        linear_combination (0 : F12 K.rom.p)
end

section
variable {C : Nat} {K : GlsRom C} [hp : Fact K.pair.rom.p.Prime] [h4 : Fact (K.pair.rom.p % 4 = 3)] {lam : Int}

theorem cast_conj {p : Nat} [hp : Fact p.Prime] (v : N12) : cast12 p (conjN12 p v) = conj12 (cast12 p v) := by
  unfold cast12 conjN12 cast4 conj12 neg2
  simp only [castN2_sub, castN2_00, zero_sub]

theorem ev_conjIf (t : TowerPrime K.pair.rom.p) (hdv : rN K.pair ∣ K.pair.rom.p ^ 4 - K.pair.rom.p ^ 2 + 1) {f : N12} {c m : F12 K.pair.rom.p} (hc : Kill K.pair.rom.p c) (hm : m ≠ 0)
    (e : cast12 K.pair.rom.p f = c * m) : cast12 K.pair.rom.p (if K.pair.negx = true then conjN12 K.pair.rom.p f else f) ≠ 0 ∧
    ev K t (cast12 K.pair.rom.p (if K.pair.negx = true then conjN12 K.pair.rom.p f else f)) = ev K t (if K.pair.negx = true then m ^ (K.pair.rom.p ^ 12 - 2) else m) := by
  have hcm : c * m ≠ 0 := f12_mul_ne t hc.1 hm
  cases K.pair.negx
  · simp only [Bool.false_eq_true, if_false]
    rw [e]
    exact ⟨hcm, ev_kill_mul t hdv hc hm⟩
  · simp only [if_true]
    rw [cast_conj, ← fr6_conj t, e]
    refine ⟨by rw [fr6_apply]; exact f12_pow_ne t hcm _, ?_⟩
    rw [ev_fr6 t hdv hcm, ev_kill_mul t hdv hc hm, ev_inv t hdv hm]

theorem add_or {x : ZMod K.pair.rom.p} {T S : (curve2 K.pair).Point} (h : AddOk K.pair x T S) (h0 : S ≠ 0) : T ≠ 0 ∧ S ≠ 0 ∧ T ≠ S ∧ T ≠ -S := by
  rcases h with ⟨_, b, _⟩ | h
  · exact absurd b h0
  · exact h

theorem mulT_mod (h : TCurve K.pair) {P : Tri} {S : (curve2 K.pair).Point} (hP : Denotes (castT K.pair.rom.p P) S) (e : Nat) :
    Denotes (castT K.pair.rom.p (mulT K.pair.rom.p (b3N K.pair) P (e.log2 + 1) e)) (e • S) :=
  mulT_denotes h.noTwo (two_ne2 h) (b3N_ok h) hP (e.log2 + 1) e Nat.lt_log2_self

theorem zs_mod {A : Type*} [AddCommGroup A] {S : A} {r : Nat} (h : r • S = 0) (q : Nat) : ((q : Nat) : Int) • S = (q % r) • S := by
  have e : (q : Int) • S = (q % r + r * (q / r)) • S := by rw [natCast_zsmul, Nat.mod_add_div]
  rw [e, add_nsmul, mul_nsmul, h, nsmul_zero, add_zero]

theorem ate_sound (hf : PairFacts K lam) (hdv : rN K.pair ∣ K.pair.rom.p ^ 4 - K.pair.rom.p ^ 2 + 1) (hd : ∀ d ∈ digs K (lbits K - 2), d = 0 ∨ d = 1 ∨ d = -1) (hb : optB K = true)
    {gx gy : N2} {S : (curve2 K.pair).Point} (hP : Denotes (castT K.pair.rom.p (gx, gy, (1, 0))) S) (h0 : S ≠ 0) (hr : rN K.pair • S = 0) (hs : psi hf.fr.six S = (K.pair.rom.p : Int) • S)
    {x y : Nat} (hy : (y : ZMod K.pair.rom.p) ≠ 0) :
    cast12 K.pair.rom.p (ateNum K.pair.rom.p (rN K.pair) K.pair.mtype K.bn K.pair.negx (b3N K.pair) gx gy x y (digs K (lbits K - 2))) ≠ 0 ∧
    ev K hf.pr (cast12 K.pair.rom.p (ateNum K.pair.rom.p (rN K.pair) K.pair.mtype K.bn K.pair.negx (b3N K.pair) gx gy x y (digs K (lbits K - 2)))) =
      ev K hf.pr (ateFn K hf.fr.six (digs K (lbits K - 2)) S ((x : ZMod K.pair.rom.p), (y : ZMod K.pair.rom.p))) := by
  have lo := loopOk_pair hf hb hr (x := (x : ZMod K.pair.rom.p)) (fun e => absurd e h0)
  obtain ⟨m1, c, m2, m3⟩ := mill_sound hf.tw hf.pr hP h0 x y (digs K (lbits K - 2)) (gx, gy, (1, 0)) one12 (S, 1) 1 hd lo hP Kill.one (by rw [cast12_one, mul_one])
  have m4 := miller_ne K.pair hf.pr (q := ((x : ZMod K.pair.rom.p), (y : ZMod K.pair.rom.p))) hy S (digs K (lbits K - 2)) (S, 1) one_ne_zero
  obtain ⟨f1, f2⟩ := ev_conjIf hf.pr hdv m2 m4 m3
  have n1 : (if K.pair.negx = true then (millerF K.pair ((x : ZMod K.pair.rom.p), (y : ZMod K.pair.rom.p)) S (digs K (lbits K - 2)) (S, 1)).2 ^ (K.pair.rom.p ^ 12 - 2)
      else (millerF K.pair ((x : ZMod K.pair.rom.p), (y : ZMod K.pair.rom.p)) S (digs K (lbits K - 2)) (S, 1)).2) ≠ 0 := by
    split_ifs
    · exact f12_pow_ne hf.pr m4 _
    · exact m4
  unfold ateNum ateFn
  dsimp only
  generalize millN K.pair.rom.p K.pair.mtype (b3N K.pair) (gx, gy, (1, 0)) (negT K.pair.rom.p (gx, gy, (1, 0))) x y (digs K (lbits K - 2)) (gx, gy, (1, 0)) one12 = R at m1 m3 f1 f2 ⊢
  cases hbn : K.bn
  · simp only [Bool.false_eq_true, if_false, mul_one]
    exact ⟨f1, f2⟩
  · simp only [if_true, forceT_eq]
    obtain ⟨l1, l2⟩ := lastOk_pair hf hb hbn hr hs (q := ((x : ZMod K.pair.rom.p), (y : ZMod K.pair.rom.p))) (fun e => absurd e h0)
    have hA : Denotes (castT K.pair.rom.p (if K.pair.negx = true then negT K.pair.rom.p R.1 else R.1))
        (if K.pair.negx = true then -(millerF K.pair ((x : ZMod K.pair.rom.p), (y : ZMod K.pair.rom.p)) S (digs K (lbits K - 2)) (S, 1)).1
          else (millerF K.pair ((x : ZMod K.pair.rom.p), (y : ZMod K.pair.rom.p)) S (digs K (lbits K - 2)) (S, 1)).1) := by
      cases K.pair.negx
      · exact m1
      · exact negT_denotes m1
    generalize (if K.pair.negx = true then -(millerF K.pair ((x : ZMod K.pair.rom.p), (y : ZMod K.pair.rom.p)) S (digs K (lbits K - 2)) (S, 1)).1
          else (millerF K.pair ((x : ZMod K.pair.rom.p), (y : ZMod K.pair.rom.p)) S (digs K (lbits K - 2)) (S, 1)).1) = T at *
    generalize (if K.pair.negx = true then negT K.pair.rom.p R.1 else R.1) = A at *
    have ob := hb
    unfold optB at ob
    rw [hbn] at ob
    simp only [Bool.and_eq_true, Bool.not_true, Bool.false_or, decide_eq_true_eq] at ob
    obtain ⟨_, ⟨⟨⟨⟨⟨_, b2⟩, _⟩, _⟩, b5⟩, _⟩, _⟩ := ob
    have p0 : psi hf.fr.six S ≠ 0 := by rw [hs]; exact fun e => b2 ((zsmul_zero hf.prime h0 hr _).1 e)
    have e2 : -(psi hf.fr.six (psi hf.fr.six S)) = (rN K.pair - K.pair.rom.p * K.pair.rom.p % rN K.pair) • S := by
      have hlt : K.pair.rom.p * K.pair.rom.p % rN K.pair ≤ rN K.pair := (Nat.mod_lt _ hf.prime.pos).le
      have h7 := sub_nsmul S hlt
      rw [h7, hr, zero_add, ← zs_mod hr, hs, map_zsmul, hs, smul_smul, Nat.cast_mul]
    have p1 : -(psi hf.fr.six (psi hf.fr.six S)) ≠ 0 := by
      rw [hs, map_zsmul, hs, smul_smul, neg_ne_zero]
      exact fun e => b5 ((zsmul_zero hf.prime h0 hr _).1 e)
    have hB := mulT_mod hf.tw hP (K.pair.rom.p % rN K.pair)
    rw [← zs_mod hr, ← hs] at hB
    have hD := mulT_mod hf.tw hP (rN K.pair - K.pair.rom.p * K.pair.rom.p % rN K.pair)
    rw [← e2] at hD
    generalize mulT K.pair.rom.p (b3N K.pair) (gx, gy, (1, 0)) ((K.pair.rom.p % rN K.pair).log2 + 1) (K.pair.rom.p % rN K.pair) = B at *
    generalize mulT K.pair.rom.p (b3N K.pair) (gx, gy, (1, 0)) ((rN K.pair - K.pair.rom.p * K.pair.rom.p % rN K.pair).log2 + 1) (rN K.pair - K.pair.rom.p * K.pair.rom.p % rN K.pair) = D at *
    obtain ⟨c1, k1, v1⟩ := addN_line hf.tw hf.pr hA hB (add_or l1 p0) x y
    obtain ⟨c2, k2, v2⟩ := addN_line hf.tw hf.pr (addT_denotes hf.tw hA hB) hD (add_or l2 p1) x y
    have g1 := chord_ne K.pair (q := ((x : ZMod K.pair.rom.p), (y : ZMod K.pair.rom.p))) hy T (psi hf.fr.six S)
    have g2 := chord_ne K.pair (q := ((x : ZMod K.pair.rom.p), (y : ZMod K.pair.rom.p))) hy (T + psi hf.fr.six S) (-(psi hf.fr.six (psi hf.fr.six S)))
    rw [cast12_mul, cast12_mul, v1, v2]
    have n2 := f12_mul_ne hf.pr (f12_mul_ne hf.pr k1.1 g1) (f12_mul_ne hf.pr k2.1 g2)
    refine ⟨f12_mul_ne hf.pr f1 n2, ?_⟩
    unfold lastLines
    rw [ev_mul hf.pr f1 n2, f2, ev_mul hf.pr n1 (f12_mul_ne hf.pr g1 g2), ev_mul hf.pr (f12_mul_ne hf.pr k1.1 g1) (f12_mul_ne hf.pr k2.1 g2), ev_kill_mul hf.pr hdv k1 g1, ev_kill_mul hf.pr hdv k2 g2,
      ev_mul hf.pr g1 g2]
end
end Verif.Ate
