import Verif.Mpin.Protocol
/-
M-Pin. C87: hashing an identity. C88: hashing to the first group. C89: secrets and their shares. C90: taking the PIN out of the token and putting it back. C91: the protocol.
-/
namespace Verif.Props
open Spec (Byte beBytes beNat ShaLen draw)
open Verif.Big Verif.Fp Verif.Rom Verif.Curve Verif.Tower Verif.Ecp Verif.Ecp2 Verif.Pair Verif.Ecdh Verif.Mpin WeierstrassCurve

variable {C : Nat}

/-! ### C87 -/

/-- C87. `hash_id` with a known hash length writes the hash of the identity, cut or padded on the left to the length of a field element, and reports success. -/
theorem C87_hash_id (K : Rom C) {sha : Nat} (hs : ShaLen sha) (id w : List Byte) (hw : K.modbytes ≤ w.length) :
    hashId K sha id w = some (true, hashBytes K.modbytes sha 0 id ++ w.drop K.modbytes) := Mpin.hashit_eq hs _ _ _ _ hw

/-- C87. The hash used for time permits and for `get_y`: a positive number comes first, as four bytes. -/
theorem C87_hashit (mb : Nat) {sha : Nat} (hs : ShaLen sha) (n : Nat) (id w : List Byte) (hw : mb ≤ w.length) :
    Mpin.hashit mb sha n id w = some (true, hashBytes mb sha n id ++ w.drop mb) ∧ (hashBytes mb sha n id).length = mb := ⟨Mpin.hashit_eq hs _ _ _ _ hw, hashBytes_length hs _ _ _⟩

/-- C87. An unknown hash length is reported and nothing is written; a short buffer makes it panic. -/
theorem C87_hash_id_bad (K : Rom C) (sha : Nat) (id w : List Byte) :
    (¬ ShaLen sha → hashId K sha id w = some (false, w)) ∧ (ShaLen sha → w.length < K.modbytes → hashId K sha id w = none) :=
  ⟨fun h => hashit_unknown h _ _ _ _, fun h => hashit_short h _ _ _ _⟩

section
variable {K : Rom C} [hp : Fact K.p.Prime]

/-! ### C88 -/

/-- C88. `ECP::mapit` tries the abscissas from the given number (modulo `p`) on; the result is the cofactor times the first point with even ordinate for which this is finite.
It is a point of the group of order `r`, other than the neutral element.  If none of the first `f` abscissas gives a point, the loop is still running after `f` passes. -/
theorem C88_mapit (h : MpinG1 K) (f : Nat) (w : List Byte) (hf : num K w % K.p + f ≤ K.p) :
    (∀ T, MapsTo K f (num K w % K.p) T → ∃ s, mapit K f w = some s ∧ IsPoint K s T ∧ T ≠ 0 ∧ ordN K • T = 0) ∧
    ((∀ T, ¬ MapsTo K f (num K w % K.p) T) → mapit K f w = none) := by
  refine ⟨fun T hT => ?_, (mapit_ok h f w hf).2⟩
  obtain ⟨s, h1, h2⟩ := (mapit_ok h f w hf).1 T hT
  exact ⟨s, h1, h2, mapsTo_prop h hT⟩

/-- C88. The result does not depend on the bound, and equal bytes are mapped to equal points. -/
theorem C88_unique (hodd : K.p % 2 = 1) {f g v : Nat} {T U : (Ecp.curve K).Point} (hT : MapsTo K f v T) (hU : MapsTo K g v U) : T = U := by
  obtain ⟨i, _, a1, a2⟩ := hT
  obtain ⟨j, _, b1, b2⟩ := hU
  have e : i = j := by
    rcases Nat.lt_trichotomy i j with c | c | c
    · exact absurd a1 (b2 i c T)
    · exact c
    · exact absurd b1 (a2 j c U)
  subst e
  obtain ⟨_, y, hh, hy, rfl⟩ := a1
  obtain ⟨_, y', hh', hy', rfl⟩ := b1
  have hy2 : y ^ 2 = y' ^ 2 := (short_eq.1 hh.1).trans (short_eq.1 hh'.1).symm
  have : (y - y') * (y + y') = 0 := by linear_combination hy2
  rcases mul_eq_zero.1 this with c | c
  · have : y = y' := by linear_combination c
    subst this; rfl
  · have ey : y = -y' := by linear_combination c
    have : y = y' := by
      by_cases h0 : y' = 0
      · rw [ey, h0, neg_zero]
      · have hn := ZMod.neg_val y'
        rw [if_neg h0] at hn
        rw [ey, hn] at hy
        have := ZMod.val_lt y'
        omega
    subst this; rfl

/-! ### C89 and C90 -/

/-- C89. `recombine_g1` adds two points of the group of order `r`; a string which is not an encoding of a point is refused. -/
theorem C89_recombine_g1 (h : MpinG1 K) {r1 r2 r : List Byte} {S T : (Ecp.curve K).Point} (h1 : Decodes K r1 S) (h2 : Decodes K r2 T) :
    (S = 0 ∨ T = 0 → recombineG1 K r1 r2 r = some (-14, r)) ∧
    (S ≠ 0 → T ≠ 0 → S + T ≠ 0 → ordN K • S = 0 → ordN K • T = 0 → 2 * K.modbytes + 1 ≤ r.length → ∃ r', recombineG1 K r1 r2 r = some (0, r') ∧ Put1 K (S + T) r r') :=
  recombineG1_ok h h1 h2

/-- C89. `random_generate` writes a number below the order, drawn from the generator. -/
theorem C89_random {σ : Type} (h : MpinG1 K) (next : σ → Byte × σ) (rng : σ) (s : List Byte) (hl : K.modbytes ≤ s.length) :
    randomGenerate next K rng s = some (beBytes K.modbytes (scalar next K rng) ++ s.drop K.modbytes, (draw next (drawn K) rng).2) ∧ scalar next K rng < ordN K := by
  obtain ⟨sc, e, hr⟩ := random_ok h.dh next rng
  refine ⟨?_, scalar_lt h.dh next rng⟩
  unfold randomGenerate
  simp only [e, Option.bind_some]
  rw [bigInto_ok h.dh hr (lt_two h.dh (scalar_lt h.dh next rng)) s hl]
  rfl

/-- C90. `extract_factor` subtracts the factor (its low `facbits` bits) times the point of the identity. -/
theorem C90_extract (h : MpinG1 K) {f sha : Nat} (hs : ShaLen sha) {cid token : List Byte} {T H : (Ecp.curve K).Point} (hT : Decodes K token T) (hH : HashesTo K f sha 0 cid H)
    (factor : BitVec 32) {facbits : Nat} (hf : facbits ≤ 32) :
    (T = 0 → extractFactor K f sha cid factor facbits token = some (-14, token)) ∧
    (T ≠ 0 → T - (factor.toNat % 2 ^ facbits) • H ≠ 0 → ordN K • T = 0 → 2 * K.modbytes + 1 ≤ token.length →
      ∃ t, extractFactor K f sha cid factor facbits token = some (0, t) ∧ Put1 K (T - (factor.toNat % 2 ^ facbits) • H) token t) := extractFactor_ok h hs hT hH factor hf

/-- C90. `restore_factor` adds it back. -/
theorem C90_restore (h : MpinG1 K) {f sha : Nat} (hs : ShaLen sha) {cid token : List Byte} {T H : (Ecp.curve K).Point} (hT : Decodes K token T) (hH : HashesTo K f sha 0 cid H)
    (factor : BitVec 32) {facbits : Nat} (hf : facbits ≤ 32) :
    (T = 0 → restoreFactor K f sha cid factor facbits token = some (-14, token)) ∧
    (T ≠ 0 → T + (factor.toNat % 2 ^ facbits) • H ≠ 0 → ordN K • T = 0 → 2 * K.modbytes + 1 ≤ token.length →
      ∃ t, restoreFactor K f sha cid factor facbits token = some (0, t) ∧ Put1 K (T + (factor.toNat % 2 ^ facbits) • H) token t) := restoreFactor_ok h hs hT hH factor hf

theorem put1_unique {T : (Ecp.curve K).Point} {b b' w w' : List Byte} (h : Put1 K T b w) (h' : Put1 K T b' w') (e : b.drop (2 * K.modbytes + 1) = b'.drop (2 * K.modbytes + 1)) : w = w' := by
  obtain ⟨x, y, hh, rfl, rfl⟩ := h
  obtain ⟨x', y', hh', e', rfl⟩ := h'
  injection e' with e1 e2
  subst e1 e2
  rw [e]

theorem put1_drop {T : (Ecp.curve K).Point} {b w : List Byte} (h : Put1 K T b w) : w.drop (2 * K.modbytes + 1) = b.drop (2 * K.modbytes + 1) := by
  obtain ⟨x, y, hh, rfl, rfl⟩ := h
  rw [List.drop_left' (by simp [sec1U]; omega)]

/-- C90. Extracting a factor from a token and restoring it gives the same bytes. -/
theorem C90_roundtrip (h : MpinG1 K) {f sha : Nat} (hs : ShaLen sha) {cid buf token : List Byte} {T H : (Ecp.curve K).Point} (hT : Put1 K T buf token) (hTr : ordN K • T = 0)
    (hl : 2 * K.modbytes + 1 ≤ buf.length) (hH : HashesTo K f sha 0 cid H) (factor : BitVec 32) {facbits : Nat} (hf : facbits ≤ 32) (hne : T - (factor.toNat % 2 ^ facbits) • H ≠ 0) :
    ∃ t, extractFactor K f sha cid factor facbits token = some (0, t) ∧ restoreFactor K f sha cid factor facbits t = some (0, token) := by
  have hl' := put1_length hl hT
  have hHr := (mapsTo_prop h hH.2).2
  obtain ⟨t, e, ht⟩ := (extractFactor_ok h hs (put1_decodes h hT) hH factor hf).2 (put1_ne hT) hne hTr (by omega)
  have hback : T - (factor.toNat % 2 ^ facbits) • H + (factor.toNat % 2 ^ facbits) • H = T := sub_add_cancel _ _
  obtain ⟨t', e', ht'⟩ := (restoreFactor_ok h hs (put1_decodes h ht) hH factor hf).2 (put1_ne ht) (by rw [hback]; exact put1_ne hT)
    (by rw [nsmul_sub, hTr, nsmul_left_comm, hHr, nsmul_zero, sub_zero]) (by rw [put1_length (by omega) ht]; omega)
  rw [hback] at ht'
  have : t' = token := put1_unique ht' hT (by rw [put1_drop ht, put1_drop hT])
  exact ⟨t, e, this ▸ e'⟩

/-- C90. `extract_pin` subtracts the PIN modulo 10000 times the point of the identity (for a PIN which is not negative). -/
theorem C90_extract_pin (h : MpinG1 K) {f sha : Nat} (hs : ShaLen sha) {cid token : List Byte} {T H : (Ecp.curve K).Point} (hT : Decodes K token T) (hH : HashesTo K f sha 0 cid H)
    {pin : Nat} (hp : pin < 2 ^ 31) :
    (T = 0 → extractPin K f sha cid (BitVec.ofNat 32 pin) token = some (-14, token)) ∧
    (T ≠ 0 → T - (pin % 10000) • H ≠ 0 → ordN K • T = 0 → 2 * K.modbytes + 1 ≤ token.length →
      ∃ t, extractPin K f sha cid (BitVec.ofNat 32 pin) token = some (0, t) ∧ Put1 K (T - (pin % 10000) • H) token t) := by
  have := extractFactor_ok h hs hT hH ((BitVec.ofNat 32 pin).srem 10000#32) (facbits := 14) (by norm_num)
  rw [pin_mod hp] at this
  exact this

end

section
variable {K : GlsRom C} [hp : Fact K.pair.rom.p.Prime] [h4 : Fact (K.pair.rom.p % 4 = 3)]

/-- C89. `get_server_secret` writes the multiple of the generator of the second group. -/
theorem C89_server_secret (h : MpinCurve K) {s sst : List Byte} (hs : num K.pair.rom s ≤ ordN K.pair.rom) (hg : Generic4 (num K.pair.rom s • gen2 h.mul))
    (hl : 4 * K.pair.rom.modbytes ≤ sst.length) : ∃ w, serverSecret K s sst = some (0, w) ∧ Put2 K.pair (num K.pair.rom s • gen2 h.mul) sst w := serverSecret_ok h hs hg hl

/-- C89. `recombine_g2` adds two points; a string which is not an encoding of a point is refused. -/
theorem C89_recombine_g2 (h : MpinCurve K) {w1 w2 w : List Byte} :
    (∀ S T : (curve2 K.pair).Point, Enc2 K.pair w1 S → Enc2 K.pair w2 T → Generic4 (S + T) → 4 * K.pair.rom.modbytes ≤ w.length →
      ∃ w', recombineG2 K.pair w1 w2 w = some (0, w') ∧ Put2 K.pair (S + T) w w') ∧
    (∀ x y : F2 K.pair.rom.p, y ^ 2 ≠ x ^ 3 + Btw K.pair →
      (enc22 K.pair.rom.modbytes x y <+: w1 ∧ 4 * K.pair.rom.modbytes ≤ w2.length) ∨ (enc22 K.pair.rom.modbytes x y <+: w2 ∧ 4 * K.pair.rom.modbytes ≤ w1.length) →
      recombineG2 K.pair w1 w2 w = some (-14, w)) :=
  ⟨fun _ _ h1 h2 hg hl => recombineG2_ok h h1 h2 hg hl, fun _ _ hb hw => recombineG2_bad h hb hw⟩

/-- C89. `get_g1_multiple` of a point: its multiple, and a refusal if there is no point. -/
theorem C89_g1_multiple (h : MpinCurve K) (f : Nat) {x g w : List Byte} {T : (Ecp.curve K.pair.rom).Point} (hg : Decodes K.pair.rom g T) :
    (T = 0 → g1Multiple K f 0 x g w = some (-14, w)) ∧
    (ordN K.pair.rom • T = 0 → num K.pair.rom x ≤ ordN K.pair.rom → num K.pair.rom x • T ≠ 0 → 2 * K.pair.rom.modbytes + 1 ≤ w.length →
      ∃ w', g1Multiple K f 0 x g w = some (0, w') ∧ Put1 K.pair.rom (num K.pair.rom x • T) w w') := g1Multiple_point h f hg

/-- C89. `get_client_secret` of a hashed identity: the multiple of the point it is mapped to. -/
theorem C89_client_secret (h : MpinCurve K) {f : Nat} {s cid w : List Byte} {T : (Ecp.curve K.pair.rom).Point} (hf : num K.pair.rom cid % K.pair.rom.p + f ≤ K.pair.rom.p)
    (hg : MapsTo K.pair.rom f (num K.pair.rom cid % K.pair.rom.p) T) (hs : num K.pair.rom s ≤ ordN K.pair.rom) (hne : num K.pair.rom s • T ≠ 0) (hl : 2 * K.pair.rom.modbytes + 1 ≤ w.length) :
    ∃ w', clientSecret K f s cid w = some (0, w') ∧ Put1 K.pair.rom (num K.pair.rom s • T) w w' := g1Multiple_hash h (by norm_num) hf hg hs hne hl

/-- C89. `get_client_permit`: the multiple of the point to which the date and the identity are hashed. -/
theorem C89_client_permit (h : MpinCurve K) {f sha date : Nat} (hs : ShaLen sha) {s cid ctt : List Byte} {T : (Ecp.curve K.pair.rom).Point} (hT : HashesTo K.pair.rom f sha date cid T)
    (hx : num K.pair.rom s ≤ ordN K.pair.rom) (hne : num K.pair.rom s • T ≠ 0) (hl : 2 * K.pair.rom.modbytes + 1 ≤ ctt.length) :
    ∃ w, clientPermit K f sha date s cid ctt = some (0, w) ∧ Put1 K.pair.rom (num K.pair.rom s • T) ctt w := clientPermit_ok h hs hT hx hne hl

/-- C89. Two authorities with the secrets `s1`, `s2`: the recombined server secret and the recombined client secret belong to the master secret `s1 + s2`. -/
theorem C89_shares (h : MpinCurve K) {f : Nat} {s1 s2 cid a1 a2 a b1 b2 b : List Byte} {T : (Ecp.curve K.pair.rom).Point} (hf : num K.pair.rom cid % K.pair.rom.p + f ≤ K.pair.rom.p)
    (hT : MapsTo K.pair.rom f (num K.pair.rom cid % K.pair.rom.p) T)
    (h1 : num K.pair.rom s1 ≤ ordN K.pair.rom) (h2 : num K.pair.rom s2 ≤ ordN K.pair.rom)
    (n1 : num K.pair.rom s1 • T ≠ 0) (n2 : num K.pair.rom s2 • T ≠ 0) (n12 : (num K.pair.rom s1 + num K.pair.rom s2) • T ≠ 0)
    (g1 : Generic4 (num K.pair.rom s1 • gen2 h.mul)) (g2 : Generic4 (num K.pair.rom s2 • gen2 h.mul)) (g12 : Generic4 ((num K.pair.rom s1 + num K.pair.rom s2) • gen2 h.mul))
    (la1 : 2 * K.pair.rom.modbytes + 1 ≤ a1.length) (la2 : 2 * K.pair.rom.modbytes + 1 ≤ a2.length) (la : 2 * K.pair.rom.modbytes + 1 ≤ a.length)
    (lb1 : 4 * K.pair.rom.modbytes ≤ b1.length) (lb2 : 4 * K.pair.rom.modbytes ≤ b2.length) (lb : 4 * K.pair.rom.modbytes ≤ b.length) :
    ∃ c1 c2 c d1 d2 d, clientSecret K f s1 cid a1 = some (0, c1) ∧ clientSecret K f s2 cid a2 = some (0, c2) ∧ recombineG1 K.pair.rom c1 c2 a = some (0, c) ∧
      serverSecret K s1 b1 = some (0, d1) ∧ serverSecret K s2 b2 = some (0, d2) ∧ recombineG2 K.pair d1 d2 b = some (0, d) ∧
      Put1 K.pair.rom ((num K.pair.rom s1 + num K.pair.rom s2) • T) a c ∧ Put2 K.pair ((num K.pair.rom s1 + num K.pair.rom s2) • gen2 h.mul) b d := by
  have o := (mapsTo_prop h.g1 hT).2
  obtain ⟨c1, e1, p1⟩ := C89_client_secret h hf hT h1 n1 la1
  obtain ⟨c2, e2, p2⟩ := C89_client_secret h hf hT h2 n2 la2
  rw [add_nsmul] at n12 g12
  obtain ⟨c, e3, p3⟩ := (recombineG1_ok h.g1 (r := a) (put1_decodes h.g1 p1) (put1_decodes h.g1 p2)).2 n1 n2 n12 (by rw [nsmul_left_comm, o, nsmul_zero]) (by rw [nsmul_left_comm, o, nsmul_zero]) la
  obtain ⟨d1, f1, q1⟩ := serverSecret_ok h h1 g1 lb1
  obtain ⟨d2, f2, q2⟩ := serverSecret_ok h h2 g2 lb2
  obtain ⟨d, f3, q3⟩ := recombineG2_ok h (put2_enc2 q1) (put2_enc2 q2) g12 lb
  exact ⟨c1, c2, c, d1, d2, d, e1, e2, e3, f1, f2, f3, by rw [add_nsmul]; exact p3, by rw [add_nsmul]; exact q3⟩

/-! ### C91 -/

/-- C91. `get_y` writes the hash of the time and the string, modulo the order. -/
theorem C91_get_y (h : MpinCurve K) {sha : Nat} (hs : ShaLen sha) (time : Nat) (xcid y : List Byte) (hl : K.pair.rom.modbytes ≤ y.length) :
    getY K.pair.rom sha time xcid y = some (beBytes K.pair.rom.modbytes (beNat (hashBytes K.pair.rom.modbytes sha time xcid) % ordN K.pair.rom) ++ y.drop K.pair.rom.modbytes) :=
  getY_ok h.g1 hs time xcid y hl

/-- C91. What `server_2` decides, for points of the groups of order `r`: with the server secret `k`, the commitment `U`, the point `V` of the identity, and the proof `M`, it
returns 0 exactly when `M = -k (y V + U)`, and otherwise reports a wrong PIN.  The properties of the pairing are assumed (`AteOk`). -/
theorem C91_server_decides_partial (h : MpinCurve K) {check : Pt2 C → Pt C → Pt2 C → Pt C → Option Bool} (hc : AteOk K (gen2 h.mul) check) {date : Nat} {hid y sst msec u v : List Byte}
    {htid xid xcid : Option (List Byte)} {k : Nat} {U V M : (Ecp.curve K.pair.rom).Point} (hu : (if date ≠ 0 then xcid else xid) = some u) (hv : (if date ≠ 0 then htid else some hid) = some v)
    (hs : Enc2 K.pair sst (k • gen2 h.mul)) (hU : Decodes K.pair.rom u U) (hV : Decodes K.pair.rom v V) (hM : Decodes K.pair.rom msec M) (nU : U ≠ 0) (nV : V ≠ 0) (nM : M ≠ 0)
    (oU : ordN K.pair.rom • U = 0) (oV : ordN K.pair.rom • V = 0) (oM : ordN K.pair.rom • M = 0) (hy : num K.pair.rom y ≤ ordN K.pair.rom) (nS : num K.pair.rom y • V + U ≠ 0) :
    ∃ c, server2 check K date hid htid y sst xid xcid msec = some c ∧ (c = 0 ∨ c = -19) ∧ (c = 0 ↔ M + k • (num K.pair.rom y • V + U) = 0) :=
  server2_ok h hc hu hv hs hU hV hM nU nV nM oU oV oM hy nS

omit h4 in
theorem smul_iff (h : MpinG1 K.pair.rom) {T : (Ecp.curve K.pair.rom).Point} (hT : T ≠ 0) (o : ordN K.pair.rom • T = 0) (k : Int) : k • T = 0 ↔ (ordN K.pair.rom : Int) ∣ k := by
  have ho : addOrderOf T = ordN K.pair.rom := by
    rcases (Nat.dvd_prime h.dh.orderPrime).1 (addOrderOf_dvd_of_nsmul_eq_zero o) with c | c
    · exact absurd (AddMonoid.addOrderOf_eq_one_iff.1 c) hT
    · exact c
  rw [← ho, addOrderOf_dvd_iff_zsmul_eq_zero]

/-- the secret of `C91_protocol_partial`, as an integer modulo the order: what the client ends up proving knowledge of -/
theorem smul_comb (H : (Ecp.curve K.pair.rom).Point) (s a b : Nat) : s • H - a • H + b • H = ((s : Int) - a + b) • H := by
  rw [add_zsmul, sub_zsmul, natCast_zsmul, natCast_zsmul, natCast_zsmul, sub_eq_add_neg]

/-- C91. The protocol without time permits, from setup to verification: master secret `s`, identity `id`, PIN `pin` at registration and `pin'` at log-in, client's random `x`,
server's challenge `y`.  Every step succeeds, and the server accepts exactly when the PINs are equal modulo 10000; otherwise it reports a wrong PIN.
The exceptional cases excluded by `n1`–`n5` are multiples of the order. The properties of the pairing are assumed (`AteOk`). -/
theorem C91_protocol_partial (h : MpinCurve K) (hbig : 10000 ≤ ordN K.pair.rom) {check : Pt2 C → Pt C → Pt2 C → Pt C → Option Bool} (hc : AteOk K (gen2 h.mul) check)
    {f sha : Nat} (hs : ShaLen sha) {s id x y : List Byte} {pin pin' : Nat} (hpin : pin < 2 ^ 31) (hpin' : pin' < 2 ^ 31)
    {H : (Ecp.curve K.pair.rom).Point} (hH : HashesTo K.pair.rom f sha 0 id H)
    (rs : num K.pair.rom s ≤ ordN K.pair.rom) (rx : num K.pair.rom x ≤ ordN K.pair.rom) (ry : num K.pair.rom y ≤ ordN K.pair.rom)
    (n1 : ¬ (ordN K.pair.rom : Int) ∣ num K.pair.rom s) (n2 : ¬ (ordN K.pair.rom : Int) ∣ num K.pair.rom s - (pin % 10000 : Nat)) (n3 : ¬ (ordN K.pair.rom : Int) ∣ num K.pair.rom s - (pin % 10000 : Nat) + (pin' % 10000 : Nat))
    (n4 : ¬ (ordN K.pair.rom : Int) ∣ num K.pair.rom x) (n5 : ¬ (ordN K.pair.rom : Int) ∣ num K.pair.rom x + num K.pair.rom y)
    (hg : Generic4 (num K.pair.rom s • gen2 h.mul)) {hcid sst tok sec hid xid : List Byte} {xcid xcid' permit htid : Option (List Byte)}
    (l0 : K.pair.rom.modbytes ≤ hcid.length) (l1 : 4 * K.pair.rom.modbytes ≤ sst.length) (l2 : 2 * K.pair.rom.modbytes + 1 ≤ tok.length) (l3 : 2 * K.pair.rom.modbytes + 1 ≤ sec.length)
    (l4 : 2 * K.pair.rom.modbytes + 1 ≤ hid.length) (l5 : 2 * K.pair.rom.modbytes + 1 ≤ xid.length) :
    ∃ sst' hcid' tok1 tok2 sec1 xid' hid' sec2 c,
      serverSecret K s sst = some (0, sst') ∧ hashId K.pair.rom sha id hcid = some (true, hcid') ∧ clientSecret K f s hcid' tok = some (0, tok1) ∧
      extractPin K.pair.rom f sha id (BitVec.ofNat 32 pin) tok1 = some (0, tok2) ∧
      client1Ext K f sha 0 id x pin' tok2 sec (some xid) xcid permit = some ⟨0, sec1, some xid', xcid⟩ ∧
      server1 K.pair.rom f sha 0 id hid htid = some (hid', htid) ∧
      client2 K x y sec1 = some (0, sec2) ∧
      server2 check K 0 hid' htid y sst' (some xid') xcid' sec2 = some c ∧ (c = 0 ∨ c = -19) ∧ (c = 0 ↔ pin % 10000 = pin' % 10000) := by
  obtain ⟨hH0, o⟩ := mapsTo_prop h.g1 hH.2
  have it := smul_iff h.g1 hH0 o
  have itn : ∀ k : Nat, k • H = 0 ↔ (ordN K.pair.rom : Int) ∣ k := fun k => by rw [← it, natCast_zsmul]
  have om : ∀ k : Int, ordN K.pair.rom • k • H = 0 := fun k => by rw [smul_comm, o, zsmul_zero]
  have omn : ∀ k : Nat, ordN K.pair.rom • k • H = 0 := fun k => by rw [nsmul_left_comm, o, nsmul_zero]
  have hpr : Prime (ordN K.pair.rom : Int) := Nat.prime_iff_prime_int.1 h.g1.dh.orderPrime
  have hlen := hashBytes_length hs K.pair.rom.modbytes 0 id
  have enum : num K.pair.rom (hashBytes K.pair.rom.modbytes sha 0 id ++ hcid.drop K.pair.rom.modbytes) = beNat (hashBytes K.pair.rom.modbytes sha 0 id) := by
    unfold num; rw [List.take_left' hlen]
  obtain ⟨sst', e1, p1⟩ := serverSecret_ok h rs hg l1
  have e2 := C87_hash_id K.pair.rom hs id hcid l0
  obtain ⟨tok1, e3, p3⟩ := C89_client_secret h (f := f) (cid := hashBytes K.pair.rom.modbytes sha 0 id ++ hcid.drop K.pair.rom.modbytes) (T := H) (by rw [enum]; exact hH.1) (by rw [enum]; exact hH.2) rs
    (fun c => n1 ((itn _).1 c)) l2
  have t1 := put1_length l2 p3
  obtain ⟨tok2, e4, p4⟩ := (C90_extract_pin h.g1 hs (put1_decodes h.g1 p3) hH hpin).2 (put1_ne p3)
    (fun c => n2 ((it _).1 (by rw [sub_zsmul, natCast_zsmul, natCast_zsmul]; exact c))) (omn _) (by omega)
  have t2 := put1_length (by omega) p4
  have osub : ordN K.pair.rom • (num K.pair.rom s • H - (pin % 10000) • H) = 0 := by rw [nsmul_sub, omn, omn, sub_zero]
  have nsec : num K.pair.rom s • H - (pin % 10000) • H + (pin' % 10000) • H ≠ 0 := by rw [smul_comb]; exact fun c => n3 ((it _).1 c)
  obtain ⟨c1, e5, k1, k2, k3, k4⟩ := client1_plain h (xcid := xcid) (permit := permit) hs (fromBytes_ok h.g1.dh x) rx hpin' hH (put1_decodes h.g1 p4) (put1_ne p4) osub nsec l3
    (xid := some xid) (fun b hb => by injection hb with hb; subst hb; exact ⟨fun c => n4 ((itn _).1 c), l5⟩)
  obtain ⟨xid', q1, q2⟩ := k3
  obtain ⟨hid', hv, e6, p6, hv', _⟩ := server1_ok h.g1 (date := 0) (htid := htid) (D := 0) hs hH (fun c => absurd rfl c) l4
  have t3 := put1_length l3 k2
  rw [hv' rfl] at e6
  obtain ⟨sec2, e7, p7⟩ := (client2_ok h (x := x) (y := y) (put1_decodes h.g1 k2)).2 (by rw [smul_comb]; exact om _)
    (by
      rw [smul_comb, ← natCast_zsmul, smul_smul]
      intro c
      rcases hpr.dvd_or_dvd ((it _).1 c) with c | c
      · exact n5 (by push_cast at c; exact c)
      · exact n3 c) (by omega)
  obtain ⟨c, e8, r1, r2⟩ := server2_ok h hc (date := 0) (hid := hid') (htid := htid) (xid := some xid') (xcid := xcid') (u := xid') (v := hid') (by simp) (by simp) (put2_enc2 p1) (put1_decodes h.g1 q2) (put1_decodes h.g1 p6) (put1_decodes h.g1 p7)
    (put1_ne q2) (put1_ne p6) (put1_ne p7) (omn _) o (by rw [neg_nsmul, nsmul_left_comm, smul_comb, om, nsmul_zero, neg_zero]) ry
    (by
      rw [← add_nsmul]
      intro c
      exact n5 (by have := (itn _).1 c; push_cast at this; rwa [add_comm] at this))
  refine ⟨sst', _, tok1, tok2, c1.sec, xid', hid', sec2, c, e1, e2, e3, e4, ?_, e6, e7, e8, r1, r2.trans ?_⟩
  · unfold client1Ext
    rw [e5]
    cases c1
    simp only at k1 k4 q1
    rw [k1, k4, q1]
  · have key : -((num K.pair.rom x + num K.pair.rom y) • (num K.pair.rom s • H - (pin % 10000) • H + (pin' % 10000) • H)) + num K.pair.rom s • (num K.pair.rom y • H + num K.pair.rom x • H) =
        (((num K.pair.rom x : Int) + num K.pair.rom y) * ((pin % 10000 : Nat) - (pin' % 10000 : Nat))) • H := by
      rw [smul_comb, ← natCast_zsmul, ← natCast_zsmul, ← natCast_zsmul H, ← natCast_zsmul H]
      push_cast
      module
    rw [key, it]
    constructor
    · intro d
      rcases hpr.dvd_or_dvd d with d | d
      · exact absurd d n5
      · have := Int.eq_zero_of_abs_lt_dvd d (by rw [abs_lt]; omega)
        omega
    · intro e; rw [e]; simp

/-- C91. The protocol with a time permit for `date`: the server accepts exactly when the PINs are equal modulo 10000.  `H`, `D` are the points of the identity and of the date
with the hashed identity. -/
theorem C91_permit_partial (h : MpinCurve K) (hbig : 10000 ≤ ordN K.pair.rom) {check : Pt2 C → Pt C → Pt2 C → Pt C → Option Bool} (hc : AteOk K (gen2 h.mul) check)
    {f sha date : Nat} (hd : date ≠ 0) (hs : ShaLen sha) {s id x y : List Byte} {pin pin' : Nat} (hpin : pin < 2 ^ 31) (hpin' : pin' < 2 ^ 31)
    {H D : (Ecp.curve K.pair.rom).Point} (hH : HashesTo K.pair.rom f sha 0 id H) (hD : HashesTo K.pair.rom f sha date (hashBytes K.pair.rom.modbytes sha 0 id) D) (hHD : H + D ≠ 0)
    (rs : num K.pair.rom s ≤ ordN K.pair.rom) (rx : num K.pair.rom x ≤ ordN K.pair.rom) (ry : num K.pair.rom y ≤ ordN K.pair.rom)
    (n1 : ¬ (ordN K.pair.rom : Int) ∣ num K.pair.rom s) (n2 : ¬ (ordN K.pair.rom : Int) ∣ num K.pair.rom s - (pin % 10000 : Nat))
    (n3 : num K.pair.rom s • H - (pin % 10000) • H + (pin' % 10000) • H + num K.pair.rom s • D ≠ 0)
    (n4 : ¬ (ordN K.pair.rom : Int) ∣ num K.pair.rom x) (n5 : ¬ (ordN K.pair.rom : Int) ∣ num K.pair.rom x + num K.pair.rom y)
    (hg : Generic4 (num K.pair.rom s • gen2 h.mul)) {hcid sst tok ctt sec hid htid xcid : List Byte} {xid' : Option (List Byte)}
    (l0 : hcid.length = K.pair.rom.modbytes) (l1 : 4 * K.pair.rom.modbytes ≤ sst.length) (l2 : 2 * K.pair.rom.modbytes + 1 ≤ tok.length) (l3 : 2 * K.pair.rom.modbytes + 1 ≤ sec.length)
    (l4 : 2 * K.pair.rom.modbytes + 1 ≤ hid.length) (l5 : 2 * K.pair.rom.modbytes + 1 ≤ htid.length) (l6 : 2 * K.pair.rom.modbytes + 1 ≤ xcid.length)
    (l7 : 2 * K.pair.rom.modbytes + 1 ≤ ctt.length) :
    ∃ sst' hcid' tok1 tok2 ctt' sec1 xcid' hid' htid' sec2 c,
      serverSecret K s sst = some (0, sst') ∧ hashId K.pair.rom sha id hcid = some (true, hcid') ∧ clientSecret K f s hcid' tok = some (0, tok1) ∧
      clientPermit K f sha date s hcid' ctt = some (0, ctt') ∧ extractPin K.pair.rom f sha id (BitVec.ofNat 32 pin) tok1 = some (0, tok2) ∧
      client1Ext K f sha date id x pin' tok2 sec none (some xcid) (some ctt') = some ⟨0, sec1, none, some xcid'⟩ ∧
      server1 K.pair.rom f sha date id hid (some htid) = some (hid', some htid') ∧
      client2 K x y sec1 = some (0, sec2) ∧
      server2 check K date hid' (some htid') y sst' xid' (some xcid') sec2 = some c ∧ (c = 0 ∨ c = -19) ∧ (c = 0 ↔ pin % 10000 = pin' % 10000) := by
  obtain ⟨hH0, o⟩ := mapsTo_prop h.g1 hH.2
  obtain ⟨hD0, oD⟩ := mapsTo_prop h.g1 hD.2
  have oHD : ordN K.pair.rom • (H + D) = 0 := by rw [nsmul_add, o, oD, add_zero]
  have it := smul_iff h.g1 hH0 o
  have itn : ∀ {T : (Ecp.curve K.pair.rom).Point}, T ≠ 0 → ordN K.pair.rom • T = 0 → ∀ k : Nat, k • T = 0 ↔ (ordN K.pair.rom : Int) ∣ k := fun a b k => by rw [← smul_iff h.g1 a b, natCast_zsmul]
  have omn : ∀ {T : (Ecp.curve K.pair.rom).Point}, ordN K.pair.rom • T = 0 → ∀ k : Nat, ordN K.pair.rom • k • T = 0 := fun a k => by rw [nsmul_left_comm, a, nsmul_zero]
  have hpr : Prime (ordN K.pair.rom : Int) := Nat.prime_iff_prime_int.1 h.g1.dh.orderPrime
  have hlen := hashBytes_length hs K.pair.rom.modbytes 0 id
  have enum : num K.pair.rom (hashBytes K.pair.rom.modbytes sha 0 id) = beNat (hashBytes K.pair.rom.modbytes sha 0 id) := by
    unfold num; rw [List.take_of_length_le (by omega)]
  obtain ⟨sst', e1, p1⟩ := serverSecret_ok h rs hg l1
  have e2 := C87_hash_id K.pair.rom hs id hcid (by omega)
  rw [List.drop_of_length_le (by omega), List.append_nil] at e2
  obtain ⟨tok1, e3, p3⟩ := C89_client_secret h (f := f) (cid := hashBytes K.pair.rom.modbytes sha 0 id) (T := H) (by rw [enum]; exact hH.1) (by rw [enum]; exact hH.2) rs
    (fun c => n1 ((itn hH0 o _).1 c)) l2
  obtain ⟨ctt', e9, p9⟩ := clientPermit_ok h hs hD rs (fun c => n1 ((itn hD0 oD _).1 c)) l7
  have t1 := put1_length l2 p3
  obtain ⟨tok2, e4, p4⟩ := (C90_extract_pin h.g1 hs (put1_decodes h.g1 p3) hH hpin).2 (put1_ne p3)
    (fun c => n2 ((it _).1 (by rw [sub_zsmul, natCast_zsmul, natCast_zsmul]; exact c))) (omn o _) (by omega)
  have t2 := put1_length (by omega) p4
  have osub : ordN K.pair.rom • (num K.pair.rom s • H - (pin % 10000) • H) = 0 := by rw [nsmul_sub, omn o, omn o, sub_zero]
  obtain ⟨c1, e5, k1, k2, k3, k4⟩ := (client1_permit h (xid := none) (xcid := some xcid) (permit := some ctt') (sec := sec) hd hs (fromBytes_ok h.g1.dh x) rx hpin' hH (put1_decodes h.g1 p4) (put1_ne p4) (put1_decodes h.g1 p9)).2
    (put1_ne p9) osub (omn oD _) hD n3 l3 (fun b hb => by cases hb) (fun b hb => by injection hb with hb; subst hb; exact ⟨fun c => n4 ((itn hHD oHD _).1 c), l6⟩)
  obtain ⟨xcid', q1, q2⟩ := k4
  obtain ⟨hid', hv, e6, p6, _, hv'⟩ := server1_ok h.g1 (date := date) (htid := some htid) (D := D) hs hH (fun _ => ⟨hD, fun b hb => by injection hb with hb; subst hb; exact ⟨hHD, l5⟩⟩) l4
  obtain ⟨htid', q3, q4⟩ := hv' hd
  rw [q3] at e6
  have t3 := put1_length l3 k2
  have oT : ordN K.pair.rom • (num K.pair.rom s • H - (pin % 10000) • H + (pin' % 10000) • H + num K.pair.rom s • D) = 0 := by
    rw [nsmul_add, nsmul_add, osub, omn o, omn oD, add_zero, add_zero]
  obtain ⟨sec2, e7, p7⟩ := (client2_ok h (x := x) (y := y) (put1_decodes h.g1 k2)).2 oT (fun c => n5 (by have := (itn n3 oT _).1 c; push_cast at this; exact this)) (by omega)
  obtain ⟨c, e8, r1, r2⟩ := server2_ok h hc (date := date) (hid := hid') (htid := some htid') (xid := xid') (xcid := some xcid') (u := xcid') (v := htid') (by simp [hd]) (by simp [hd]) (put2_enc2 p1) (put1_decodes h.g1 q2) (put1_decodes h.g1 q4) (put1_decodes h.g1 p7)
    (put1_ne q2) (put1_ne q4) (put1_ne p7) (omn oHD _) oHD (by rw [neg_nsmul, omn oT, neg_zero]) ry
    (by
      rw [← add_nsmul]
      intro c
      exact n5 (by have := (itn hHD oHD _).1 c; push_cast at this; rwa [add_comm] at this))
  refine ⟨sst', _, tok1, tok2, ctt', c1.sec, xcid', hid', htid', sec2, c, e1, e2, e3, e9, e4, ?_, e6, e7, e8, r1, r2.trans ?_⟩
  · unfold client1Ext
    rw [e5]
    cases c1
    simp only [PutOpt] at k1 k3 q1
    rw [k1, k3, q1]
  · have key : -((num K.pair.rom x + num K.pair.rom y) • (num K.pair.rom s • H - (pin % 10000) • H + (pin' % 10000) • H + num K.pair.rom s • D)) +
          num K.pair.rom s • (num K.pair.rom y • (H + D) + num K.pair.rom x • (H + D)) =
        (((num K.pair.rom x : Int) + num K.pair.rom y) * ((pin % 10000 : Nat) - (pin' % 10000 : Nat))) • H := by
      rw [smul_comb]
      simp only [← natCast_zsmul]
      push_cast
      module
    rw [key, it]
    constructor
    · intro d
      rcases hpr.dvd_or_dvd d with d | d
      · exact absurd d n5
      · have := Int.eq_zero_of_abs_lt_dvd d (by rw [abs_lt]; omega)
        omega
    · intro e; rw [e]; simp

/-- C91. What `server_2` refuses, whatever the pairing does: a server secret which is not a point, a missing commitment (`BAD_PARAMS`), and a commitment, an identity or a proof which is not a point. -/
theorem C91_server_refuses (h : MpinCurve K) (check : Pt2 C → Pt C → Pt2 C → Pt C → Option Bool) {date : Nat} {hid y sst msec : List Byte} {htid xid xcid : Option (List Byte)} :
    (∀ (x z : F2 K.pair.rom.p), z ^ 2 ≠ x ^ 3 + Btw K.pair → enc22 K.pair.rom.modbytes x z <+: sst → server2 check K date hid htid y sst xid xcid msec = some (-14)) ∧
    (∀ T : (curve2 K.pair).Point, Enc2 K.pair sst T →
      ((if date ≠ 0 then xcid else xid) = none → server2 check K date hid htid y sst xid xcid msec = some (-11)) ∧
      ∀ u, (if date ≠ 0 then xcid else xid) = some u → (Decodes K.pair.rom u 0 → server2 check K date hid htid y sst xid xcid msec = some (-14)) ∧
        ∀ U, Decodes K.pair.rom u U → U ≠ 0 → ((if date ≠ 0 then htid else some hid) = none → server2 check K date hid htid y sst xid xcid msec = some (-11)) ∧
          ∀ v, (if date ≠ 0 then htid else some hid) = some v → (Decodes K.pair.rom v 0 → server2 check K date hid htid y sst xid xcid msec = some (-14)) ∧
            ∀ V, Decodes K.pair.rom v V → V ≠ 0 → ordN K.pair.rom • V = 0 → num K.pair.rom y ≤ ordN K.pair.rom → Decodes K.pair.rom msec 0 →
              server2 check K date hid htid y sst xid xcid msec = some (-14)) := by
  constructor
  · rintro x z hb ⟨rest, rfl⟩
    obtain ⟨q, e, hq⟩ := h.codec.2.2.1 x z rest hb
    unfold server2
    simp only [e, Option.bind_eq_bind, Option.bind_some, (inf2 h hq).2 rfl, if_true]
    rfl
  · intro T hT
    obtain ⟨q, e, hq, nq⟩ := dec2 h hT
    unfold server2
    simp only [e, Option.bind_eq_bind, Option.bind_some, inf2 h hq, if_neg nq]
    refine ⟨fun hu => by rw [hu]; rfl, fun u hu => ?_⟩
    rw [hu]
    simp only
    refine ⟨fun hU => ?_, fun U hU nU => ?_⟩
    · obtain ⟨a, e2, ha⟩ := Ecdh.frombytes_ok h.g1.dh hU
      simp only [e2, Option.bind_some, (inf1 h.g1 ha).2 rfl, if_true]
      rfl
    · obtain ⟨a, e2, ha⟩ := Ecdh.frombytes_ok h.g1.dh hU
      simp only [e2, Option.bind_some, inf1 h.g1 ha, if_neg nU]
      refine ⟨fun hv => by rw [hv]; rfl, fun v hv => ?_⟩
      rw [hv]
      simp only
      refine ⟨fun hV => ?_, fun V hV nV oV hy hM => ?_⟩
      · obtain ⟨b, e3, hb⟩ := Ecdh.frombytes_ok h.g1.dh hV
        simp only [e3, Option.bind_some, (inf1 h.g1 hb).2 rfl, if_true]
        rfl
      · obtain ⟨b, e3, hb⟩ := Ecdh.frombytes_ok h.g1.dh hV
        obtain ⟨P, e5, hP⟩ := g1mul_ok' h hb oV (fromBytes_ok h.g1.dh y) hy
        obtain ⟨m, e4, hm⟩ := Ecdh.frombytes_ok h.g1.dh hM
        simp only [e3, Option.bind_some, inf1 h.g1 hb, if_neg nV, e5, e4, (inf1 h.g1 hm).2 rfl, if_true]
        rfl

end
end Verif.Props
