import Verif.Spec.DhGen
import Verif.Ecdh.DhMain
/- Diffie-Hellman and ECDSA in an abstract group: the proofs of `Dh.lean` and `DhMain.lean` with `FormOk` for `DhCurve`. -/
namespace Verif.Ecdh.Gen
open Verif.Big Verif.Fp Verif.Rom Verif.Curve Verif.Ecp Verif.Ecdh Spec
open Verif.Nhs (draw_add)

set_option linter.unusedSectionVars false
variable {C : Nat} {K : Rom C} [hp : Fact K.p.Prime]

theorem _root_.Verif.Ecdh.DhNum.R_lt (h : DhNum K) : 2 * (ordN K : Int) < 2 ^ (K.P.b * K.P.n) := by
  have h1 := h.orderRange
  have hb := h.consts.ok.hb
  have hn := h.consts.hn
  have h2 : 4 ≤ K.P.b * K.P.n := by nlinarith
  have e : (2 : Nat) ^ (K.P.b * K.P.n) = 16 * 2 ^ (K.P.b * K.P.n - 4) := by
    rw [show (16 : Nat) = 2 ^ 4 by norm_num, ← pow_add]; congr 1; omega
  have : 2 * ordN K < 2 ^ (K.P.b * K.P.n) := by rw [e]; omega
  exact_mod_cast this

theorem _root_.Verif.Ecdh.DhNum.R_pos (h : DhNum K) : 1 < ordN K := h.orderPrime.one_lt

/-- a normalised number below the order, after another normalisation -/
theorem rep_norm (h : DhNum K) {x : Limbs C} {X : Int} (hx : Rep K.P.b K.P.n x X) (h0 : 0 ≤ X) (h1 : 2 * X < 2 ^ (K.P.b * K.P.n)) :
    Rep K.P.b K.P.n (norm K.P.b x) X ∧ 2 * X < cap C K.P.b K.P.n := by
  have hcg := cap_ge (n := K.P.n) h.consts.ok (by have := h.consts.hn; omega)
  exact ⟨hx.norm h.consts.ok (by have := h.consts.hn; omega) (by have := cap_pos C K.P.b K.P.n; omega) (by omega), by omega⟩

theorem bytes_lt (h : DhNum K) {X : Nat} (hX : X < 256 ^ K.modbytes) : 2 * (X : Int) < 2 ^ (K.P.b * K.P.n) := by
  have h3 : 2 * X < 2 ^ (K.P.b * K.P.n) := by
    refine lt_of_lt_of_le (Nat.mul_lt_mul_of_pos_left hX (by norm_num)) ?_
    rw [show (256 : Nat) = 2 ^ 8 by norm_num, ← pow_mul, ← pow_succ']
    exact Nat.pow_le_pow_right (by norm_num) (by have := h.spare; omega)
  exact_mod_cast h3

theorem fromBytes_ok (h : DhNum K) (s : List Byte) : Rep K.P.b K.P.n (fromBytes (C := C) K.P.b K.P.n K.modbytes s) (num K s : Int) :=
  fromBytes_rep h.consts.ok h.consts.hn K.modbytes h.bytes.room s

theorem rmod_ok (h : DhNum K) {x : Limbs C} {X : Nat} (hx : Rep K.P.b K.P.n x (X : Int)) (hX : 2 * (X : Int) < 2 ^ (K.P.b * K.P.n)) :
    ∃ r, rmod K.P.b (fuel K) x K.order = some r ∧ Rep K.P.b K.P.n r ((X % ordN K : Nat) : Int) := by
  obtain ⟨n1, n2⟩ := rep_norm h hx (by positivity) hX
  have hR : (0 : Int) < ordN K := by have := h.R_pos; omega
  obtain ⟨r, e1, e2⟩ := rmod_spec h.consts.ok h.consts.hn (fuel K) n1 h.orderRep (by positivity) n2 hR (fuel_cap h.consts.ok h.consts.hn (fuel_ge K) n2 hR)
  exact ⟨r, e1, by rwa [Int.natCast_mod]⟩

theorem modmul_ok (h : DhNum K) {x y : Limbs C} {X Y : Nat} (hx : Rep K.P.b K.P.n (norm K.P.b x) (X : Int)) (hX : 2 * (X : Int) < cap C K.P.b K.P.n)
    (hy : Rep K.P.b K.P.n (norm K.P.b y) (Y : Int)) (hY : 2 * (Y : Int) < cap C K.P.b K.P.n) :
    ∃ r, modmul K.P.b (fuel K) x y K.order = some r ∧ Rep K.P.b K.P.n r ((X * Y % ordN K : Nat) : Int) := by
  have hR : (0 : Int) < ordN K := by have := h.R_pos; omega
  obtain ⟨r, e1, e2⟩ := modmul_spec h.consts.ok h.consts.hn h.consts.fits (fuel K) (fuel_ge K) hx hy h.orderRep (by positivity) hX (by positivity) hY hR h.R_lt.le
  exact ⟨r, e1, by rw [Int.natCast_mod, Nat.cast_mul]; exact e2⟩

theorem modmul_ok' (h : DhNum K) {x y : Limbs C} {X Y : Nat} (hx : Rep K.P.b K.P.n x (X : Int)) (hX : 2 * (X : Int) < 2 ^ (K.P.b * K.P.n))
    (hy : Rep K.P.b K.P.n y (Y : Int)) (hY : 2 * (Y : Int) < 2 ^ (K.P.b * K.P.n)) :
    ∃ r, modmul K.P.b (fuel K) x y K.order = some r ∧ Rep K.P.b K.P.n r ((X * Y % ordN K : Nat) : Int) := by
  obtain ⟨n1, n2⟩ := rep_norm h hx (by positivity) hX
  obtain ⟨m1, m2⟩ := rep_norm h hy (by positivity) hY
  exact modmul_ok h n1 n2 m1 m2

theorem lt_two (h : DhNum K) {X : Nat} (hX : X < ordN K) : 2 * (X : Int) < 2 ^ (K.P.b * K.P.n) := by
  have := h.R_lt
  have : (X : Int) < ordN K := by exact_mod_cast hX
  omega

theorem mod_lt (h : DhNum K) (X : Nat) : X % ordN K < ordN K := Nat.mod_lt _ (by have := h.R_pos; omega)

/-- the buffer after writing a number -/
theorem bigInto_ok (h : DhNum K) {x : Limbs C} {X : Nat} (hx : Rep K.P.b K.P.n x (X : Int)) (hX : 2 * (X : Int) < 2 ^ (K.P.b * K.P.n)) (buf : List Byte)
    (hb : K.modbytes ≤ buf.length) : bigInto K x buf = some (beBytes K.modbytes X ++ buf.drop K.modbytes) := by
  unfold bigInto
  rw [if_neg (by omega), toBytes, toBytesGo_spec h.consts.ok K.modbytes _ X (rep_norm h hx (by positivity) hX).1]

theorem p_lt (h : DhNum K) (x : ZMod K.p) : 2 * ((x.val : Nat) : Int) < 2 ^ (K.P.b * K.P.n) :=
  bytes_lt h (lt_trans (ZMod.val_lt x) h.bytes.fits)

theorem order_norm (h : DhNum K) : Rep K.P.b K.P.n (norm K.P.b K.order) (ordN K : Int) := (rep_norm h h.orderRep (by positivity) h.R_lt).1

theorem nbits_size (h : DhNum K) : nbits K.P.b K.order = (ordN K).size := by
  obtain ⟨a, b, _⟩ := nbits_spec h.consts.ok K.order (order_norm h) (by positivity)
  have hR := h.R_pos
  obtain ⟨c, d⟩ := b (by omega)
  have a' : ordN K < 2 ^ nbits K.P.b K.order := by exact_mod_cast a
  have d' : 2 ^ (nbits K.P.b K.order - 1) ≤ ordN K := by exact_mod_cast d
  have h1 : (ordN K).size ≤ nbits K.P.b K.order := Nat.size_le.2 a'
  have h2 : nbits K.P.b K.order - 1 < (ordN K).size := Nat.lt_size.2 d'
  omega

theorem random_ok {σ : Type} (h : DhNum K) (next : σ → Byte × σ) (rng : σ) :
    ∃ r, randomnum next K.P.b (fuel K) K.order rng = (some r, (draw next (drawn K) rng).2) ∧ Rep K.P.b K.P.n r ((scalar next K rng : Nat) : Int) := by
  obtain ⟨r, e, hr⟩ := randomnum_spec h.consts.ok h.consts.hn (fuel K) (fuel_ge K) h.orderRep (order_norm h) (by have := h.R_pos; omega) h.R_lt next rng
  rw [nbits_size h] at e hr
  refine ⟨r, e, ?_⟩
  unfold scalar drawn
  rw [Int.natCast_mod]
  exact hr

theorem scalar_lt {σ : Type} (h : DhNum K) (next : σ → Byte × σ) (rng : σ) : scalar next K rng < ordN K := mod_lt h _

theorem inv_sound (h : DhNum K) {x y : Limbs C} {X : Nat} (hx : Rep K.P.b K.P.n x (X : Int)) (hX : 2 * (X : Int) < 2 ^ (K.P.b * K.P.n))
    (e : invmodp K.P.b (fuel K) x K.order = some y) : ∃ Y : Nat, Rep K.P.b K.P.n y (Y : Int) ∧ Y < ordN K ∧ X * Y % ordN K = 1 := by
  obtain ⟨n1, n2⟩ := rep_norm h hx (by positivity) hX
  have hR := h.R_pos
  have ho := h.orderOdd
  obtain ⟨Y, r1, r2, r3, r4⟩ := invmodp_sound h.consts.ok h.consts.hn (fuel K) n1 h.orderRep (by positivity) n2 (by exact_mod_cast hR) (by exact_mod_cast ho) h.R_lt.le e
  obtain ⟨Y, rfl⟩ := Int.eq_ofNat_of_zero_le r2
  exact ⟨Y, r1, by exact_mod_cast r3, by exact_mod_cast r4⟩

theorem inv_some (h : DhNum K) {x : Limbs C} {X : Nat} (hx : Rep K.P.b K.P.n x (X : Int)) (h0 : X ≠ 0) (hX : X < ordN K) :
    ∃ y, invmodp K.P.b (fuel K) x K.order = some y := by
  obtain ⟨n1, n2⟩ := rep_norm h hx (by positivity) (lt_two h hX)
  have hR := h.R_pos
  have ho := h.orderOdd
  refine invmodp_some h.consts.ok h.consts.hn (fuel K) (fuel_ge K) n1 h.orderRep (by positivity) n2 (by exact_mod_cast hR) (by exact_mod_cast ho) h.R_lt.le ?_
  rw [Int.gcd_natCast_natCast]
  exact (Nat.coprime_of_lt_prime h0 hX h.orderPrime).symm

theorem nbits_p (h : DhNum K) : nbits K.P.b K.P.md = K.p.size := by
  have hpp := hp.out.pos
  have hr := rep_norm h h.consts.md_rep (by positivity) (bytes_lt h h.bytes.fits)
  obtain ⟨a, b, _⟩ := nbits_spec h.consts.ok K.P.md hr.1 (by positivity)
  obtain ⟨c, d⟩ := b (by exact_mod_cast hpp.ne')
  have a' : K.p < 2 ^ nbits K.P.b K.P.md := by exact_mod_cast a
  have d' : 2 ^ (nbits K.P.b K.P.md - 1) ≤ K.p := by exact_mod_cast d
  have h1 : K.p.size ≤ nbits K.P.b K.P.md := Nat.size_le.2 a'
  have h2 : nbits K.P.b K.P.md - 1 < K.p.size := Nat.lt_size.2 d'
  omega

theorem verify_range (h : DhNum K) {sha : Nat} (hs : ShaLen sha) (hmb : 0 < K.modbytes) (w f c d : List Byte)
    (hr : num K c = 0 ∨ ordN K ≤ num K c ∨ num K d = 0 ∨ ordN K ≤ num K d) : verify K sha w f c d = some (-4) := by
  obtain ⟨b, e, _⟩ := hash_pad (K := K) hs hmb f
  have r1 := fromBytes_ok h c
  have r2 := fromBytes_ok h d
  unfold verify
  simp only [e, Option.bind_eq_bind, Option.bind_some]
  rw [if_pos]
  · rfl
  · simp only [Bool.or_eq_true, decide_eq_true_eq]
    rcases hr with k | k | k | k
    · exact Or.inl (Or.inl (Or.inl (r1.iszilch.2 (by exact_mod_cast k))))
    · exact Or.inl (Or.inl (Or.inr ((r1.comp_ge h.orderRep).2 (by exact_mod_cast k))))
    · exact Or.inl (Or.inr (r2.iszilch.2 (by exact_mod_cast k)))
    · exact Or.inr ((r2.comp_ge h.orderRep).2 (by exact_mod_cast k))


variable {Γ : Type} [AddCommGroup Γ] {g : Form K Γ}

theorem G_ne (h : FormOk g) : g.G ≠ 0 := h.ne

theorem R_smul (h : FormOk g) : ordN K • g.G = 0 := h.annihilates

theorem smul_mod (h : FormOk g) (k : Nat) : (k % ordN K) • g.G = k • g.G := by
  conv_rhs => rw [← Nat.mod_add_div k (ordN K)]
  rw [add_nsmul, mul_comm, mul_nsmul' , R_smul h, nsmul_zero, add_zero]

theorem smul_congr (h : FormOk g) {j k : Nat} (e : (j : ZMod (ordN K)) = (k : ZMod (ordN K))) : j • g.G = k • g.G := by
  rw [← smul_mod h j, ← smul_mod h k]
  rw [(ZMod.natCast_eq_natCast_iff' _ _ _).1 e]

theorem smul_ne (h : FormOk g) {k : Nat} (hk : ¬ ordN K ∣ k) : k • g.G ≠ 0 := by
  intro e
  have h1 := addOrderOf_dvd_of_nsmul_eq_zero e
  have h2 := addOrderOf_dvd_of_nsmul_eq_zero (R_smul h)
  rcases (Nat.dvd_prime h.num.orderPrime).1 h2 with h3 | h3
  · exact G_ne h (AddMonoid.addOrderOf_eq_one_iff.1 h3)
  · exact hk (h3 ▸ h1)

theorem mulG (h : FormOk g) {s : Pt C} {T : Γ} (hs : g.isPt s T) {e : Limbs C} {E : Nat} (he : Rep K.P.b K.P.n e (E : Int)) (hE : E < ordN K) :
    ∃ r, Ecp.mul K s e = some r ∧ g.isPt r (E • T) := by
  exact h.mul _ _ _ _ hs he (by have := h.num.orderRange; omega)

/-- the coordinates printed by a point with reduced coordinates -/
theorem getxy_ok (h : FormOk g) {s : Pt C} {T : Γ} (hs : g.isPt s T) (hT : T ≠ 0) (hr : Reduced K s) :
    Rep K.P.b K.P.n (getx K s) ((g.X T).val : Int) ∧ Rep K.P.b K.P.n (gety K s) ((g.Y T).val : Int) := by
  obtain ⟨x, y, hx, hy, rx, ry⟩ := hr
  obtain ⟨ex, ey⟩ := h.xy s T hs hT
  have key : ∀ (a : Fp C) (v : Nat), v < K.p → Rep K.P.b K.P.n (redc K.P a) (v : Int) → v = (residue K.P K.p a).val := by
    intro a v hv hr
    have e : residue K.P K.p a = (v : ZMod K.p) := by
      have hf : K.P.factor = 1 := by simp [Params.factor, h.num.plain]
      have hd : redc K.P a = a.x := by simp [redc, h.num.plain]
      rw [residue, hf, Int.cast_one, inv_one, mul_one, ← hd, hr.val, Int.cast_natCast]
    rw [e, ZMod.val_natCast_of_lt hv]
  have e1 := key _ x hx rx
  have e2 := key _ y hy ry
  rw [ex] at e1
  rw [ey] at e2
  rw [← e1, ← e2]
  exact ⟨rx, ry⟩

theorem getx_mod (h : FormOk g) {s : Pt C} {T : Γ} (hs : g.isPt s T) (hT : T ≠ 0) (hr : Reduced K s) :
    ∃ c, rmod K.P.b (fuel K) (getx K s) K.order = some c ∧ Rep K.P.b K.P.n c (((g.X T).val % ordN K : Nat) : Int) :=
  rmod_ok h.num (getxy_ok h hs hT hr).1 (bytes_lt h.num (lt_trans (ZMod.val_lt _) h.num.bytes.fits))

theorem frombytes_ok (h : FormOk g) {w : List Byte} {T : Γ} (hw : DecodesU g w T) : ∃ r, Ecp.frombytes K w = some r ∧ g.isPt r T := by
  obtain ⟨r, S, h1, h2, h3⟩ := h.decode w hw.long hw.tag
  refine ⟨r, h1, ?_⟩
  have : T = S := by
    by_cases c : T = 0
    · by_cases c' : S = 0
      · rw [c, c']
      · exact (hw.point S c').2 ((h3.point S c').1 rfl)
    · exact ((h3.point T c).2 ((hw.point T c).1 rfl)).symm
  rwa [this]

theorem decodesU_sec1U (h : FormOk g) {T : Γ} (hT : T ≠ 0) (rest : List Byte) : DecodesU g (sec1U K (g.X T) (g.Y T) ++ rest) T := by
  have hl : 2 * K.modbytes + 1 ≤ (sec1U K (g.X T) (g.Y T) ++ rest).length := by
    rw [List.length_append]; simp only [sec1U, List.length_cons, List.length_append, Spec.beBytes_length]; omega
  have ht : (sec1U K (g.X T) (g.Y T) ++ rest).headD 0 = 0x04#8 := by simp [sec1U]
  obtain ⟨r, S, _, _, h3⟩ := h.decode _ hl ht
  have e : S = T := (h3.point T hT).2 (List.prefix_append _ _)
  rwa [e] at h3

/-- key generation from a scalar -/
theorem keyTail_ok (h : FormOk g) {sc : Limbs C} {A : Nat} (hA : A < ordN K) (hsc : Rep K.P.b K.P.n sc (A : Int)) (s w : List Byte)
    (hs : K.modbytes ≤ s.length) (hw : 2 * K.modbytes + 1 ≤ w.length) (hT : A • g.G ≠ 0) (hx : RedMul K (generator K) A) :
    keyPairTail K sc s w = some (beBytes K.modbytes A ++ s.drop K.modbytes, sec1U K (g.X (A • g.G)) (g.Y (A • g.G)) ++ w.drop (2 * K.modbytes + 1)) := by
  unfold keyPairTail
  rw [bigInto_ok h.num hsc (lt_two h.num hA) s hs]
  obtain ⟨r, e1, e2⟩ := mulG h h.base hsc hA
  obtain ⟨p1, p2⟩ := getxy_ok h e2 hT (hx _ _ hsc e1)
  have e3 := h.print r _ w p1 p2 hw
  simp only [Option.bind_eq_bind, Option.bind_some, e1, e3, Option.pure_def]

theorem dh_ok (h : FormOk g) {s wd z : List Byte} {T : Γ} (hw : DecodesU g wd T) (hT : (num K s % ordN K) • T ≠ 0)
    (hx : ∀ W, Ecp.frombytes K wd = some W → RedMul K W (num K s % ordN K)) (hz : K.modbytes ≤ z.length) :
    dh K s wd z = some (0, beBytes K.modbytes (g.X ((num K s % ordN K) • T)).val ++ z.drop K.modbytes) := by
  obtain ⟨W, e1, i1⟩ := frombytes_ok h hw
  obtain ⟨sc, e2, i2⟩ := rmod_ok h.num (fromBytes_ok h.num s) (bytes_lt h.num (num_lt K s))
  obtain ⟨V, e3, i3⟩ := mulG h i1 i2 (mod_lt h.num _)
  have hT0 : T ≠ 0 := by
    rintro rfl
    rw [nsmul_zero] at hT
    exact hT rfl
  have c1 : ¬ isInfinity K W = true := fun hc => hT0 ((h.inf _ _ i1).1 hc)
  have c2 : ¬ isInfinity K V = true := fun hc => hT ((h.inf _ _ i3).1 hc)
  unfold dh
  simp only [Option.bind_eq_bind, Option.bind_some, e1, e2, e3, if_neg c1, if_neg c2, bigInto_ok h.num (getxy_ok h i3 hT (hx W e1 _ _ i2 e3)).1 (p_lt h.num _) z hz, Option.pure_def]

theorem dh_reject (h : FormOk g) {s wd : List Byte} (z : List Byte) {T : Γ} (hw : DecodesU g wd T)
    (hT : T = 0 ∨ (num K s % ordN K) • T = 0) : dh K s wd z = some (-3, z) := by
  obtain ⟨W, e1, i1⟩ := frombytes_ok h hw
  obtain ⟨sc, e2, i2⟩ := rmod_ok h.num (fromBytes_ok h.num s) (bytes_lt h.num (num_lt K s))
  obtain ⟨V, e3, i3⟩ := mulG h i1 i2 (mod_lt h.num _)
  unfold dh
  simp only [Option.bind_eq_bind, Option.bind_some, e1, e2, e3]
  by_cases c : T = 0
  · rw [if_pos ((h.inf _ _ i1).2 c)]; rfl
  · rw [if_neg (fun hc => c ((h.inf _ _ i1).1 hc)), if_pos ((h.inf _ _ i3).2 (hT.resolve_left c))]; rfl

theorem dsaLoop_sound {σ : Type} (h : FormOk g) (next : σ → Byte × σ) {sc fb : Limbs C} {A F : Nat} (hA : Rep K.P.b K.P.n sc (A : Int)) (hA' : A < 256 ^ K.modbytes)
    (hF : Rep K.P.b K.P.n fb (F : Int)) (hF' : F < 256 ^ K.modbytes) (passes : Nat) (rng : σ) {r : Limbs C × Limbs C × σ}
    (hred : ∀ i < passes, RedMul K (generator K) (scalar next K (draw next (2 * i * drawn K) rng).2))
    (e : dsaLoop next K sc fb passes rng = some r) :
    ∃ i c d, i < passes ∧ Rep K.P.b K.P.n r.1 ((c : Nat) : Int) ∧ Rep K.P.b K.P.n r.2.1 ((d : Nat) : Int) ∧
      r.2.2 = (draw next (2 * (i + 1) * drawn K) rng).2 ∧ SignedG g A F (scalar next K (draw next (2 * i * drawn K) rng).2) c d := by
  induction passes generalizing rng r with
  | zero => exact absurd e (by simp [dsaLoop])
  | succ f ih =>
    obtain ⟨u, e1, hu⟩ := random_ok h.num next rng
    obtain ⟨w, e2, hw⟩ := random_ok h.num next (draw next (drawn K) rng).2
    have hst : (draw next (drawn K) (draw next (drawn K) rng).2).2 = (draw next (2 * drawn K) rng).2 := by
      rw [two_mul, draw_add]
    have hnext : ∀ {r : Limbs C × Limbs C × σ}, dsaLoop next K sc fb f (draw next (2 * drawn K) rng).2 = some r →
        ∃ i c d, i < f + 1 ∧ Rep K.P.b K.P.n r.1 ((c : Nat) : Int) ∧ Rep K.P.b K.P.n r.2.1 ((d : Nat) : Int) ∧
        r.2.2 = (draw next (2 * (i + 1) * drawn K) rng).2 ∧ SignedG g A F (scalar next K (draw next (2 * i * drawn K) rng).2) c d := by
      intro r e
      obtain ⟨i, c, d, hi, k1, k2, k3, k4⟩ := ih _ (fun i hi => by
        have := hred (i + 1) (by omega)
        rwa [show 2 * (i + 1) * drawn K = 2 * drawn K + 2 * i * drawn K by ring, draw_add] at this) e
      refine ⟨i + 1, c, d, by omega, k1, k2, ?_, ?_⟩
      · rw [k3, show 2 * (i + 1 + 1) * drawn K = 2 * drawn K + 2 * (i + 1) * drawn K by ring, draw_add]
      · rwa [show 2 * (i + 1) * drawn K = 2 * drawn K + 2 * i * drawn K by ring, draw_add]
    obtain ⟨V, e3, hV⟩ := mulG h h.base hu (scalar_lt h.num next rng)
    have hV0 : Reduced K V := by
      have := hred 0 (by omega)
      rw [Nat.mul_zero, Nat.zero_mul, draw] at this
      exact this _ _ hu e3
    rw [dsaLoop] at e
    simp only [e1, e2, e3, Option.bind_some, hst] at e
    obtain ⟨cb, ec, e⟩ := Option.bind_eq_some_iff.1 e
    by_cases c1 : iszilch cb = true
    · rw [if_pos c1] at e
      exact hnext e
    rw [if_neg c1] at e
    obtain ⟨tb, et, e⟩ := Option.bind_eq_some_iff.1 e
    obtain ⟨ui, ei, e⟩ := Option.bind_eq_some_iff.1 e
    obtain ⟨db, ed, e⟩ := Option.bind_eq_some_iff.1 e
    obtain ⟨db2, ed2, e⟩ := Option.bind_eq_some_iff.1 e
    obtain ⟨db3, ed3, e⟩ := Option.bind_eq_some_iff.1 e
    by_cases c2 : iszilch db3 = true
    · rw [if_pos c2] at e
      exact hnext e
    rw [if_neg c2] at e
    cases e
    generalize hU : scalar next K rng = U at *
    generalize hWW : scalar next K (draw next (drawn K) rng).2 = W at *
    have hUlt : U < ordN K := hU ▸ scalar_lt h.num next rng
    have hWlt : W < ordN K := hWW ▸ scalar_lt h.num next _
    obtain ⟨tb', et', htb⟩ := modmul_ok' h.num hu (lt_two h.num hUlt) hw (lt_two h.num hWlt)
    rw [et] at et'; cases et'
    obtain ⟨ui', hui, hui2, hui3⟩ := inv_sound h.num htb (lt_two h.num (mod_lt h.num _)) ei
    have hU0 : U ≠ 0 := by rintro rfl; simp at hui3
    have hW0 : W ≠ 0 := by rintro rfl; simp at hui3
    have hne : U • g.G ≠ 0 := smul_ne h (fun hd => hU0 (Nat.eq_zero_of_dvd_of_lt hd hUlt))
    obtain ⟨cb', ec', hcb⟩ := getx_mod h hV hne hV0
    rw [ec] at ec'; cases ec'
    obtain ⟨cN, hcN⟩ : ∃ cN, cN = (g.X (U • g.G)).val % ordN K := ⟨_, rfl⟩
    rw [← hcN] at hcb
    have hcl : cN < ordN K := hcN ▸ mod_lt h.num _
    have hc0 : cN ≠ 0 := by rintro rfl; exact c1 (hcb.iszilch.2 rfl)
    obtain ⟨db', ed', hdb⟩ := modmul_ok' h.num hA (bytes_lt h.num hA') hcb (lt_two h.num hcl)
    rw [ed] at ed'; cases ed'
    have hcg := cap_ge (n := K.P.n) h.num.consts.ok (by have := h.num.consts.hn; omega)
    have h4 : 4 * (256 : Int) ^ K.modbytes ≤ 2 ^ (K.P.b * K.P.n) := by
      have : 4 * 256 ^ K.modbytes ≤ 2 ^ (K.P.b * K.P.n) := by
        rw [show (256 : Nat) = 2 ^ 8 by norm_num, show 4 = 2 ^ 2 by norm_num, ← pow_mul, ← pow_add]
        exact Nat.pow_le_pow_right (by norm_num) (by have := h.num.spare; omega)
      exact_mod_cast this
    have hF'' : (F : Int) < 256 ^ K.modbytes := by exact_mod_cast hF'
    have hD : (A * cN % ordN K : Nat) < ordN K := mod_lt h.num _
    have hRb := h.num.orderBytes
    have hD'' : ((A * cN % ordN K : Nat) : Int) < 256 ^ K.modbytes := by exact_mod_cast lt_of_lt_of_le hD hRb
    have hcp := cap_pos C K.P.b K.P.n
    have hsum := norm_add_rep h.num.consts.ok (by have := h.num.consts.hn; omega) hdb hF (by omega) (by omega) (by omega) (by omega)
    obtain ⟨m1, m2⟩ := rep_norm h.num hw (by positivity) (lt_two h.num hWlt)
    rw [← Nat.cast_add] at hsum
    obtain ⟨db2', ed2', hdb2⟩ := modmul_ok h.num hsum (by rw [Nat.cast_add]; omega) m1 m2
    rw [ed2] at ed2'; cases ed2'
    obtain ⟨db3', ed3', hdb3⟩ := modmul_ok' h.num hui (lt_two h.num hui2) hdb2 (lt_two h.num (mod_lt h.num _))
    rw [ed3] at ed3'; cases ed3'
    refine ⟨0, cN, _, by omega, hcb, hdb3, by simp only [Nat.zero_add, mul_one], ?_⟩
    rw [Nat.mul_zero, Nat.zero_mul, draw, hU]
    refine ⟨hU0, ⟨hc0, hcl⟩, ⟨?_, mod_lt h.num _⟩, ⟨hne, hcN⟩, ?_⟩
    · intro hz
      rw [hz] at hdb3
      exact c2 (hdb3.iszilch.2 rfl)
    · have : Fact (ordN K).Prime := ⟨h.num.orderPrime⟩
      have hi : (U : ZMod (ordN K)) * W * ui' = 1 := by
        have := congrArg (Nat.cast (R := ZMod (ordN K))) hui3
        simpa using this
      rw [← ZMod.natCast_eq_natCast_iff']
      push_cast [ZMod.natCast_mod]
      linear_combination (A * cN + F : ZMod (ordN K)) * hi

theorem dsaLoop_first {σ : Type} (h : FormOk g) (next : σ → Byte × σ) {sc fb : Limbs C} {A F : Nat} (hA : Rep K.P.b K.P.n sc (A : Int)) (hA' : A < 256 ^ K.modbytes)
    (hF : Rep K.P.b K.P.n fb (F : Int)) (hF' : F < 256 ^ K.modbytes) (passes : Nat) (rng : σ)
    (hU0 : scalar next K rng ≠ 0) (hW0 : scalar next K (draw next (drawn K) rng).2 ≠ 0) (hred : RedMul K (generator K) (scalar next K rng))
    (hx : (g.X (scalar next K rng • g.G)).val % ordN K ≠ 0) (hdd : (F + A * ((g.X (scalar next K rng • g.G)).val % ordN K)) % ordN K ≠ 0) :
    ∃ r, dsaLoop next K sc fb (passes + 1) rng = some r ∧ ∃ c d, Rep K.P.b K.P.n r.1 ((c : Nat) : Int) ∧ Rep K.P.b K.P.n r.2.1 ((d : Nat) : Int) ∧ c < ordN K ∧ d < ordN K := by
  obtain ⟨u, e1, hu⟩ := random_ok h.num next rng
  obtain ⟨w, e2, hw⟩ := random_ok h.num next (draw next (drawn K) rng).2
  obtain ⟨V, e3, hV⟩ := mulG h h.base hu (scalar_lt h.num next rng)
  have hne : scalar next K rng • g.G ≠ 0 := smul_ne h (fun hd => hU0 (Nat.eq_zero_of_dvd_of_lt hd (scalar_lt h.num next rng)))
  have : Fact (ordN K).Prime := ⟨h.num.orderPrime⟩
  obtain ⟨cb, ec, hcb⟩ := getx_mod h hV hne (hred _ _ hu e3)
  obtain ⟨cN, hcN⟩ : ∃ cN, cN = (g.X (scalar next K rng • g.G)).val % ordN K := ⟨_, rfl⟩
  have hcl : cN < ordN K := hcN ▸ mod_lt h.num _
  rw [← hcN] at hx hdd hcb
  generalize hU : scalar next K rng = U at *
  generalize hWW : scalar next K (draw next (drawn K) rng).2 = W at *
  have hUlt : U < ordN K := hU ▸ scalar_lt h.num next rng
  have hWlt : W < ordN K := hWW ▸ scalar_lt h.num next _
  obtain ⟨tb, et, htb⟩ := modmul_ok' h.num hu (lt_two h.num hUlt) hw (lt_two h.num hWlt)
  have ht0 : U * W % ordN K ≠ 0 := fun hc => by
    rcases h.num.orderPrime.dvd_mul.1 (Nat.dvd_of_mod_eq_zero hc) with k | k
    · exact hU0 (Nat.eq_zero_of_dvd_of_lt k hUlt)
    · exact hW0 (Nat.eq_zero_of_dvd_of_lt k hWlt)
  obtain ⟨ui, ei⟩ := inv_some h.num htb ht0 (mod_lt h.num _)
  obtain ⟨ui', hui, hui2, hui3⟩ := inv_sound h.num htb (lt_two h.num (mod_lt h.num _)) ei
  obtain ⟨db, ed, hdb⟩ := modmul_ok' h.num hA (bytes_lt h.num hA') hcb (lt_two h.num hcl)
  have hcg := cap_ge (n := K.P.n) h.num.consts.ok (by have := h.num.consts.hn; omega)
  have h4 : 4 * (256 : Int) ^ K.modbytes ≤ 2 ^ (K.P.b * K.P.n) := by
    have : 4 * 256 ^ K.modbytes ≤ 2 ^ (K.P.b * K.P.n) := by
      rw [show (256 : Nat) = 2 ^ 8 by norm_num, show 4 = 2 ^ 2 by norm_num, ← pow_mul, ← pow_add]
      exact Nat.pow_le_pow_right (by norm_num) (by have := h.num.spare; omega)
    exact_mod_cast this
  have hF'' : (F : Int) < 256 ^ K.modbytes := by exact_mod_cast hF'
  have hD : (A * cN % ordN K : Nat) < ordN K := mod_lt h.num _
  have hRb := h.num.orderBytes
  have hD'' : ((A * cN % ordN K : Nat) : Int) < 256 ^ K.modbytes := by exact_mod_cast lt_of_lt_of_le hD hRb
  have hcp := cap_pos C K.P.b K.P.n
  have hsum := norm_add_rep h.num.consts.ok (by have := h.num.consts.hn; omega) hdb hF (by omega) (by omega) (by omega) (by omega)
  obtain ⟨m1, m2⟩ := rep_norm h.num hw (by positivity) (lt_two h.num hWlt)
  rw [← Nat.cast_add] at hsum
  obtain ⟨db2, ed2, hdb2⟩ := modmul_ok h.num hsum (by rw [Nat.cast_add]; omega) m1 m2
  obtain ⟨db3, ed3, hdb3⟩ := modmul_ok' h.num hui (lt_two h.num hui2) hdb2 (lt_two h.num (mod_lt h.num _))
  have c1 : ¬ iszilch cb = true := fun hc => hx (by exact_mod_cast hcb.iszilch.1 hc)
  have c2 : ¬ iszilch db3 = true := fun hc => by
    have hz : ui' * ((A * cN % ordN K + F) * W % ordN K) % ordN K = 0 := by exact_mod_cast hdb3.iszilch.1 hc
    have hz' := congrArg (Nat.cast (R := ZMod (ordN K))) hz
    have hi : (U : ZMod (ordN K)) * W * ui' = 1 := by
      have := congrArg (Nat.cast (R := ZMod (ordN K))) hui3
      simpa using this
    push_cast [ZMod.natCast_mod] at hz'
    have h0 : (F + A * cN : ZMod (ordN K)) = 0 := by
      linear_combination (U : ZMod (ordN K)) * hz' - (F + A * cN : ZMod (ordN K)) * hi
    apply hdd
    have : ((F + A * cN : Nat) : ZMod (ordN K)) = 0 := by push_cast; exact h0
    exact Nat.mod_eq_zero_of_dvd ((ZMod.natCast_eq_zero_iff _ _).1 this)
  refine ⟨(cb, db3, (draw next (drawn K) (draw next (drawn K) rng).2).2), ?_, cN, _, hcb, hdb3, hcl, mod_lt h.num _⟩
  rw [dsaLoop]
  simp only [e1, e2, e3, Option.bind_some, ec, if_neg c1, et, ei, ed, ed2, ed3, if_neg c2]

theorem verify_gen (h : FormOk g) {sha : Nat} (hs : ShaLen sha) (hmb : 0 < K.modbytes) {w : List Byte} (f c d : List Byte) {T : Γ} (hw : DecodesU g w T)
    (hc : num K c ≠ 0 ∧ num K c < ordN K) (hd : num K d ≠ 0 ∧ num K d < ordN K) :
    (T = 0 → verify K sha w f c d = some (-3)) ∧
    (T ≠ 0 → ∃ v, v < ordN K ∧ num K d * v % ordN K = 1 ∧
      ((num K c * v % ordN K) • T + (digestNum K sha f * v % ordN K) • g.G = 0 → verify K sha w f c d = some (-4)) ∧
      ((num K c * v % ordN K) • T + (digestNum K sha f * v % ordN K) • g.G ≠ 0 →
        (∀ W, Ecp.frombytes K w = some W → RedMul2 K W (num K c * v % ordN K) (generator K) (digestNum K sha f * v % ordN K)) →
        verify K sha w f c d = some (if (g.X ((num K c * v % ordN K) • T + (digestNum K sha f * v % ordN K) • g.G)).val % ordN K = num K c then 0 else -4))) := by
  obtain ⟨b, e, hb⟩ := hash_pad (K := K) hs hmb f
  have r1 := fromBytes_ok h.num c
  have r2 := fromBytes_ok h.num d
  have r3 := fromBytes_ok h.num b
  obtain ⟨W, eW, iW⟩ := frombytes_ok h hw
  obtain ⟨dv, ed⟩ := inv_some h.num r2 hd.1 hd.2
  obtain ⟨v, r4, hv, hdv⟩ := inv_sound h.num r2 (lt_two h.num hd.2) ed
  obtain ⟨fb, ef, rf⟩ := modmul_ok' h.num r3 (bytes_lt h.num (num_lt K b)) r4 (lt_two h.num hv)
  obtain ⟨h2, eh, rh⟩ := modmul_ok' h.num r1 (lt_two h.num hc.2) r4 (lt_two h.num hv)
  obtain ⟨P, eP, iP⟩ := h.mul2 _ _ _ _ _ _ _ _ iW h.base rh (by have := h.num.orderRange; have := mod_lt h.num (num K c * v); omega) rf (by have := h.num.orderRange; have := mod_lt h.num (num K b * v); omega)
  rw [hb] at iP rf
  have cond : ¬ (iszilch (fromBytes (C := C) K.P.b K.P.n K.modbytes c) || decide (comp (fromBytes K.P.b K.P.n K.modbytes c) K.order ≥ 0) ||
      iszilch (fromBytes (C := C) K.P.b K.P.n K.modbytes d) || decide (comp (fromBytes K.P.b K.P.n K.modbytes d) K.order ≥ 0)) = true := by
    simp only [Bool.or_eq_true, decide_eq_true_eq]
    rintro (((k | k) | k) | k)
    · exact hc.1 (by exact_mod_cast r1.iszilch.1 k)
    · have : ordN K ≤ num K c := by exact_mod_cast (r1.comp_ge h.num.orderRep).1 k
      omega
    · exact hd.1 (by exact_mod_cast r2.iszilch.1 k)
    · have : ordN K ≤ num K d := by exact_mod_cast (r2.comp_ge h.num.orderRep).1 k
      omega
  constructor
  · intro hT
    unfold verify
    simp only [e, Option.bind_eq_bind, Option.bind_some, if_neg cond, ed, ef, eh, eW]
    rw [if_pos ((h.inf _ _ iW).2 hT)]; rfl
  · intro hT
    have cT : ¬ isInfinity K W = true := fun hc => hT ((h.inf _ _ iW).1 hc)
    refine ⟨v, hv, hdv, ?_, ?_⟩
    · intro hQ
      unfold verify
      simp only [e, Option.bind_eq_bind, Option.bind_some, if_neg cond, ed, ef, eh, eW, if_neg cT, eP]
      rw [if_pos ((h.inf _ _ iP).2 hQ)]; rfl
    · intro hQ hr
      have cQ : ¬ isInfinity K P = true := fun hc => hQ ((h.inf _ _ iP).1 hc)
      obtain ⟨cb, ec, rc⟩ := getx_mod h iP hQ (hr W eW _ _ _ rh rf eP)
      generalize (g.X _).val % ordN K = X at *
      unfold verify
      simp only [e, Option.bind_eq_bind, Option.bind_some, if_neg cond, ed, ef, eh, eW, if_neg cT, eP, if_neg cQ, ec, Option.pure_def]
      have hce := rc.comp_eq r1
      by_cases hx : X = num K c
      · rw [if_pos hx, if_neg (by rw [not_not]; exact hce.2 (by exact_mod_cast hx))]
      · rw [if_neg hx, if_pos (fun k => hx (by exact_mod_cast hce.1 k))]

theorem halve_ok (h : FormOk g) (f : Nat) {k : Limbs C} {k0 : Nat} (hk : Rep K.P.b K.P.n k (k0 : Int)) (h0 : k0 ≠ 0) (hf : k0 < 2 ^ f)
    (hr : k0 + 2 < 2 ^ (K.P.b * K.P.n - 4)) {W : Pt C} {T : Γ} (hW : g.isPt W T) :
    ∃ k' W' k1 T', halve K f k W = some (k', W') ∧ Rep K.P.b K.P.n k' ((k1 : Nat) : Int) ∧ k1 ≠ 0 ∧ k1 + 2 < 2 ^ (K.P.b * K.P.n - 4) ∧ g.isPt W' T' ∧ k1 • T' = k0 • T := by
  induction f generalizing k k0 W T with
  | zero => exact absurd hf (by simp; omega)
  | succ f ih =>
    have hp := hk.parity h.num.consts.ok h.num.consts.hn
    rw [halve]
    by_cases c : parity k = 0
    · rw [if_pos c]
      rw [hp] at c
      have h2 : k0 % 2 = 0 := by omega
      have hn := h.num.consts.hn
      have hb := h.num.consts.ok.hb
      have hpow : (2 : Nat) ^ (K.P.b * K.P.n - 4) ≤ 2 ^ (K.P.b * K.P.n) := Nat.pow_le_pow_right (by norm_num) (by omega)
      have hlt : (k0 : Int) < 2 ^ (K.P.b * K.P.n) := by
        have : k0 < 2 ^ (K.P.b * K.P.n) := by omega
        exact_mod_cast this
      have r := shr_rep (k := 1) h.num.consts.ok hk (by rw [Nat.div_eq_of_lt (by omega)]; omega) (by positivity) hlt
      rw [pow_one] at r
      have r : Rep K.P.b K.P.n (shr K.P.b 1 k) ((k0 / 2 : Nat) : Int) := by
        rw [Int.natCast_div]; exact r
      obtain ⟨k', W', k1, T', a1, a2, a3, a4, a5, a6⟩ := ih r (by omega) (by rw [pow_succ 2 f] at hf; omega) (by omega) (h.dbl _ _ hW)
      refine ⟨k', W', k1, T', a1, a2, a3, a4, a5, a6.trans ?_⟩
      rw [← two_nsmul, ← mul_nsmul', Nat.div_mul_cancel (Nat.dvd_of_mod_eq_zero h2)]
    · rw [if_neg c]
      exact ⟨k, W, k0, T, rfl, hk, h0, hr, hW, rfl⟩

open Classical in
theorem validate_ok (h : FormOk g) (hc : CofOk K) {w : List Byte} {T : Γ} (hw : DecodesU g w T) :
    publicKeyValidate K w = some (if T ≠ 0 ∧ cofN K • T ≠ 0 then 0 else -2) := by
  obtain ⟨W, e1, i1⟩ := frombytes_ok h hw
  unfold publicKeyValidate
  simp only [Option.bind_eq_bind, Option.bind_some, e1]
  by_cases hT : T = 0
  · rw [if_pos ((h.inf _ _ i1).2 hT), if_neg (fun k => k.1 hT)]; rfl
  rw [if_neg (fun k => hT ((h.inf _ _ i1).1 k)), nbits_p h.num]
  have hn := h.num.consts.hn
  have hb := h.num.consts.ok.hb
  have hC := h.num.consts.ok.hC
  generalize hm : (K.p.size + 4) / 2 = m
  have q1 := hc.quot
  have q4 := hc.room
  rw [hm] at q1 q4
  have hR := h.num.R_pos
  have hmlt : m < K.P.b * K.P.n := by
    have : (2 : Nat) ^ m < 2 ^ (K.P.b * K.P.n) := by omega
    exact (Nat.pow_lt_pow_iff_right (by norm_num)).1 this
  have hmk : m / K.P.b < K.P.n := Nat.div_lt_of_lt_mul hmlt
  have hone := newInt_rep (C := C) h.num.consts.ok (n := K.P.n) (by omega) 1 (by norm_num) (one_lt_pow₀ (by norm_num) (by omega))
  have q4' : 2 * ((2 : Int) ^ m + K.p) < 2 ^ (K.P.b * K.P.n) := by exact_mod_cast q4
  have hpn : (0 : Int) ≤ K.p := by positivity
  have h2m : (0 : Int) < 2 ^ m := by positivity
  have hsh := shl_rep (k := m) h.num.consts.ok hone hmk (by norm_num) (by omega)
  rw [one_mul] at hsh
  have hcg := cap_ge (n := K.P.n) h.num.consts.ok (by omega)
  have hcp := cap_pos C K.P.b K.P.n
  have hsum := norm_add_rep h.num.consts.ok (by omega) hsh h.num.consts.md_rep (by omega) (by omega) (by omega) (by omega)
  have hRz : (0 : Int) < ordN K := by exact_mod_cast (by omega : 0 < ordN K)
  obtain ⟨f, hf⟩ : ∃ f, fuel K = f + 1 := ⟨fuel K - 1, by have := fuel_ge K; omega⟩
  have hfge : K.P.b * K.P.n ≤ f := by have := fuel_ge K; omega
  have hpf : (2 : Int) ^ (K.P.b * K.P.n) ≤ 2 ^ f := pow_le_pow_right₀ (by norm_num) hfge
  obtain ⟨q, eq1, rq⟩ := div_spec h.num.consts.ok hn f hsum h.num.orderRep (by omega) (by omega) hRz (by nlinarith)
  have rq : Rep K.P.b K.P.n q ((cofN K : Nat) : Int) := by
    rw [← q1]; push_cast; exact rq
  have hcl : cofN K < 2 ^ fuel K := by
    have h1 := hc.range
    have h2 : (2 : Nat) ^ (K.P.b * K.P.n - 4) ≤ 2 ^ fuel K := Nat.pow_le_pow_right (by norm_num) (by have := fuel_ge K; omega)
    omega
  obtain ⟨k', W', k1, T', a1, a2, a3, a4, a5, a6⟩ := halve_ok h (fuel K) rq hc.pos hcl hc.range i1
  rw [← hf] at eq1
  simp only [eq1, Option.bind_some, a1]
  by_cases c : isunity k' = true
  · rw [if_pos c]
    have : k1 = 1 := by exact_mod_cast (a2.isunity h.num.consts.ok (by omega)).1 c
    subst this
    rw [one_nsmul] at a6
    subst a6
    have := h.inf _ _ a5
    simp only [Option.bind_some, Option.pure_def]
    by_cases c2 : cofN K • T = 0
    · rw [if_pos (this.2 c2), if_neg (fun k => k.2 c2)]
    · rw [if_neg (fun k => c2 (this.1 k)), if_pos ⟨hT, c2⟩]
  · rw [if_neg c]
    obtain ⟨V, ev, iv⟩ := h.mul _ _ _ _ a5 a2 a4
    rw [a6] at iv
    have := h.inf _ _ iv
    simp only [ev, Option.bind_some, Option.pure_def]
    by_cases c2 : cofN K • T = 0
    · rw [if_pos (this.2 c2), if_neg (fun k => k.2 c2)]
    · rw [if_neg (fun k => c2 (this.1 k)), if_pos ⟨hT, c2⟩]

end Verif.Ecdh.Gen
