import Verif.Mpin.Proof
/- the client and server steps of M-Pin -/
namespace Verif.Mpin
open Spec (Byte beBytes beNat ShaLen)
open Verif.Big Verif.Fp Verif.Rom Verif.Curve Verif.Tower Verif.Ecp Verif.Ecp2 Verif.Pair Verif.Ecdh Verif.Props Verif.Bls WeierstrassCurve

variable {C : Nat}

section
variable {K : Rom C} [hp : Fact K.p.Prime]

theorem put_ok (h : MpinG1 K) {s : Pt C} {T : (Ecp.curve K).Point} (hs : IsPoint K s T) (hR : ordN K • T = 0) {buf : Option (List Byte)} (hb : Fits1 K T buf) :
    ∃ w, put K s buf = some w ∧ PutOpt K T buf w := by
  cases buf with
  | none => exact ⟨none, rfl, rfl⟩
  | some b =>
    obtain ⟨h1, h2⟩ := hb b rfl
    obtain ⟨w, e, hw⟩ := enc1 h hs h1 hR h2
    exact ⟨some w, by show Option.map some _ = _; rw [e]; rfl, w, rfl, hw⟩

theorem server1_ok (h : MpinG1 K) {f sha date : Nat} (hs : ShaLen sha) {cid hid : List Byte} {htid : Option (List Byte)} {H D : (Ecp.curve K).Point}
    (hH : HashesTo K f sha 0 cid H) (hD : date ≠ 0 → HashesTo K f sha date (hashBytes K.modbytes sha 0 cid) D ∧ Fits1 K (H + D) htid) (hl : 2 * K.modbytes + 1 ≤ hid.length) :
    ∃ w v, server1 K f sha date cid hid htid = some (w, v) ∧ Put1 K H hid w ∧ (date = 0 → v = htid) ∧ (date ≠ 0 → PutOpt K (H + D) htid v) := by
  obtain ⟨s, e1, hs'⟩ := hashPoint_ok h hs hH
  obtain ⟨hne, hr⟩ := mapsTo_prop h hH.2
  obtain ⟨w, e2, hw⟩ := enc1 h hs' hne hr hl
  unfold server1
  simp only [e1, e2, Option.bind_eq_bind, Option.bind_some]
  by_cases c : date = 0
  · rw [if_neg (by simpa using c)]
    exact ⟨w, htid, rfl, hw, fun _ => rfl, fun c' => absurd c c'⟩
  · rw [if_pos c]
    obtain ⟨hD1, hD2⟩ := hD c
    obtain ⟨t, e3, ht⟩ := hashPoint_ok h hs hD1
    obtain ⟨v, e4, hv⟩ := put_ok h (C48_add h.dh.curve hs' ht) (by rw [nsmul_add, hr, (mapsTo_prop h hD1.2).2, add_zero]) hD2
    simp only [e3, Option.bind_some, e4]
    exact ⟨w, v, rfl, hw, fun c' => absurd c' c, fun _ => hv⟩

theorem rmod_sum (h : DhCurve K) {x y : Limbs C} {X Y : Nat} (hx : Rep K.P.b K.P.n x (X : Int)) (hX : X < 256 ^ K.modbytes) (hy : Rep K.P.b K.P.n y (Y : Int)) (hY : Y < 256 ^ K.modbytes) :
    ∃ r, rmod K.P.b (fuel K) (Big.add x y) K.order = some r ∧ Rep K.P.b K.P.n r (((X + Y) % ordN K : Nat) : Int) := by
  have hs := h.spare
  have hn : 0 < K.P.n := by have := h.consts.hn; omega
  have hR : (0 : Int) < ordN K := by have := h.R_pos; omega
  have hc := cap_ge h.consts.ok hn
  have h2 : (4 : Int) * 256 ^ K.modbytes ≤ 2 ^ (K.P.b * K.P.n) := by
    have : (2 : Int) ^ (8 * K.modbytes + 2) ≤ 2 ^ (K.P.b * K.P.n) := pow_le_pow_right₀ (by norm_num) hs
    rw [pow_add, pow_mul] at this
    norm_num at this
    linarith
  have hX' : (X : Int) < 256 ^ K.modbytes := by exact_mod_cast hX
  have hY' : (Y : Int) < 256 ^ K.modbytes := by exact_mod_cast hY
  have x0 : (0 : Int) ≤ X := by positivity
  have y0 : (0 : Int) ≤ Y := by positivity
  have ha := norm_add_rep h.consts.ok hn hx hy (by linarith) (by linarith) (by linarith) (by linarith)
  have hlt : 2 * ((X : Int) + Y) < cap C K.P.b K.P.n := by linarith
  obtain ⟨r, e1, e2⟩ := rmod_spec h.consts.ok h.consts.hn (fuel K) ha h.orderRep (by positivity) hlt hR (fuel_cap h.consts.ok h.consts.hn (fuel_ge K) hlt hR)
  exact ⟨r, e1, by rw [Int.natCast_mod]; push_cast; exact e2⟩

theorem getY_ok (h : MpinG1 K) {sha : Nat} (hs : ShaLen sha) (time : Nat) (xcid y : List Byte) (hl : K.modbytes ≤ y.length) :
    getY K sha time xcid y = some (beBytes K.modbytes (beNat (hashBytes K.modbytes sha time xcid) % ordN K) ++ y.drop K.modbytes) := by
  have hlen := hashBytes_length hs K.modbytes time xcid
  have e : num K (hashBytes K.modbytes sha time xcid) = beNat (hashBytes K.modbytes sha time xcid) := by
    unfold num; rw [List.take_of_length_le (by omega)]
  unfold getY
  rw [hashit_eq hs _ _ _ _ (by simp)]
  simp only [List.drop_replicate, Nat.sub_self, List.replicate_zero, List.append_nil, Option.bind_eq_bind, Option.bind_some]
  obtain ⟨r, e1, hr⟩ := Ecdh.rmod_ok h.dh (fromBytes_ok h.dh (hashBytes K.modbytes sha time xcid)) (bytes_lt h.dh (num_lt K _))
  rw [e] at hr
  simp only [e1, Option.bind_some]
  exact bigInto_ok h.dh hr (lt_two h.dh (mod_lt h.dh _)) y hl

end

section
variable {K : GlsRom C} [hp : Fact K.pair.rom.p.Prime] [h4 : Fact (K.pair.rom.p % 4 = 3)]

theorem client2_ok (h : MpinCurve K) {x y sec : List Byte} {T : (Ecp.curve K.pair.rom).Point} (hT : Decodes K.pair.rom sec T) :
    (T = 0 → client2 K x y sec = some (-14, sec)) ∧
    (ordN K.pair.rom • T = 0 → (num K.pair.rom x + num K.pair.rom y) • T ≠ 0 → 2 * K.pair.rom.modbytes + 1 ≤ sec.length →
      ∃ w, client2 K x y sec = some (0, w) ∧ Put1 K.pair.rom (-((num K.pair.rom x + num K.pair.rom y) • T)) sec w) := by
  obtain ⟨P, e1, hP⟩ := Ecdh.frombytes_ok h.g1.dh hT
  have i1 := inf1 h.g1 hP
  unfold client2
  simp only [e1, Option.bind_eq_bind, Option.bind_some, i1]
  constructor
  · intro c; rw [if_pos c]; rfl
  · intro o hne hl
    rw [if_neg (by rintro rfl; exact hne (nsmul_zero _))]
    obtain ⟨px, e2, hpx⟩ := rmod_sum h.g1.dh (fromBytes_ok h.g1.dh x) (num_lt _ x) (fromBytes_ok h.g1.dh y) (num_lt _ y)
    obtain ⟨Q, e3, hQ⟩ := g1mul_ok' h hP o hpx (le_of_lt (mod_lt h.g1.dh _))
    have em : ((num K.pair.rom x + num K.pair.rom y) % ordN K.pair.rom) • T = (num K.pair.rom x + num K.pair.rom y) • T := by
      conv_rhs => rw [← Nat.div_add_mod (num K.pair.rom x + num K.pair.rom y) (ordN K.pair.rom), add_nsmul, mul_nsmul, o, nsmul_zero, zero_add]
    rw [em] at hQ
    obtain ⟨w, e, hw⟩ := enc1 h.g1 (C48_neg h.g1.dh.curve hQ) (by simpa using hne) (by rw [neg_nsmul, nsmul_left_comm, o, nsmul_zero, neg_zero]) hl
    simp only [e2, e3, Option.bind_some, e]
    exact ⟨w, rfl, hw⟩

/-- the point added as a time permit -/
def PermitIs (K : Rom C) [Fact K.p.Prime] (A : (Ecp.curve K).Point) : Option (List Byte) → (Ecp.curve K).Point → Prop
  | some p, W => Decodes K p W
  | none, W => W = A

theorem client1_bad (h : MpinCurve K) {f sha date : Nat} (hs : ShaLen sha) {id : List Byte} {sx : Limbs C} {pin : Nat} {token sec : List Byte} {xid xcid permit : Option (List Byte)}
    {H : (Ecp.curve K.pair.rom).Point} (hH : HashesTo K.pair.rom f sha 0 id H) (hT : Decodes K.pair.rom token 0) :
    client1 K f sha date id sx pin token sec xid xcid permit = some ⟨-14, sec, xid, xcid⟩ := by
  obtain ⟨P, e1, hP⟩ := hashPoint_ok h.g1 hs hH
  obtain ⟨Q, e2, hQ⟩ := Ecdh.frombytes_ok h.g1.dh hT
  unfold client1
  simp only [e1, e2, Option.bind_eq_bind, Option.bind_some, (inf1 h.g1 hQ).2 rfl, if_true]
  rfl

theorem client1_plain (h : MpinCurve K) {f sha : Nat} (hs : ShaLen sha) {id : List Byte} {sx : Limbs C} {X : Nat} (hsx : Rep K.pair.rom.P.b K.pair.rom.P.n sx (X : Int)) (hX : X ≤ ordN K.pair.rom)
    {pin : Nat} (hpin : pin < 2 ^ 31) {token sec : List Byte} {xid xcid permit : Option (List Byte)} {H T : (Ecp.curve K.pair.rom).Point}
    (hH : HashesTo K.pair.rom f sha 0 id H) (hT : Decodes K.pair.rom token T) (hT0 : T ≠ 0) (hTr : ordN K.pair.rom • T = 0) (hS : T + (pin % 10000) • H ≠ 0)
    (hl : 2 * K.pair.rom.modbytes + 1 ≤ sec.length) (hx : Fits1 K.pair.rom (X • H) xid) :
    ∃ c, client1 K f sha 0 id sx pin token sec xid xcid permit = some c ∧ c.code = 0 ∧ Put1 K.pair.rom (T + (pin % 10000) • H) sec c.sec ∧ PutOpt K.pair.rom (X • H) xid c.xid ∧ c.xcid = xcid := by
  obtain ⟨P, e1, hP⟩ := hashPoint_ok h.g1 hs hH
  obtain ⟨Q, e2, hQ⟩ := Ecdh.frombytes_ok h.g1.dh hT
  have hHr := (mapsTo_prop h.g1 hH.2).2
  obtain ⟨W, e3, hW⟩ := C49_pinmul h.g1.dh.curve hP ((BitVec.ofNat 32 pin).srem 10000#32) 14 (by norm_num)
  rw [pin_mod hpin] at hW
  obtain ⟨w, e4, hw⟩ := enc1 h.g1 (C48_add h.g1.dh.curve hQ hW) hS (by rw [nsmul_add, hTr, nsmul_left_comm, hHr, nsmul_zero, add_zero]) hl
  unfold client1
  simp only [e1, e2, e3, Option.bind_eq_bind, Option.bind_some, inf1 h.g1 hQ, if_neg hT0, ne_eq, not_true_eq_false, if_false]
  cases xid with
  | none =>
    simp only [e4, Option.bind_some]
    exact ⟨_, rfl, rfl, hw, rfl, rfl⟩
  | some b =>
    obtain ⟨f1, f2⟩ := hx b rfl
    obtain ⟨R, e5, hR⟩ := g1mul_ok' h hP hHr hsx hX
    obtain ⟨v, e6, hv⟩ := enc1 h.g1 hR f1 (by rw [nsmul_left_comm, hHr, nsmul_zero]) f2
    simp only [e5, e6, e4, Option.bind_some]
    exact ⟨_, rfl, rfl, hw, ⟨v, rfl, hv⟩, rfl⟩

theorem client1_permit (h : MpinCurve K) {f sha date : Nat} (hd : date ≠ 0) (hs : ShaLen sha) {id : List Byte} {sx : Limbs C} {X : Nat} (hsx : Rep K.pair.rom.P.b K.pair.rom.P.n sx (X : Int))
    (hX : X ≤ ordN K.pair.rom) {pin : Nat} (hpin : pin < 2 ^ 31) {token sec : List Byte} {xid xcid permit : Option (List Byte)} {H D T W : (Ecp.curve K.pair.rom).Point}
    (hH : HashesTo K.pair.rom f sha 0 id H) (hT : Decodes K.pair.rom token T) (hT0 : T ≠ 0) (hW : PermitIs K.pair.rom ((pin % 10000) • H) permit W) :
    (W = 0 → client1 K f sha date id sx pin token sec xid xcid permit = some ⟨-14, sec, xid, xcid⟩) ∧
    (W ≠ 0 → ordN K.pair.rom • T = 0 → ordN K.pair.rom • W = 0 → HashesTo K.pair.rom f sha date (hashBytes K.pair.rom.modbytes sha 0 id) D → T + (pin % 10000) • H + W ≠ 0 →
      2 * K.pair.rom.modbytes + 1 ≤ sec.length → Fits1 K.pair.rom (X • H) xid → Fits1 K.pair.rom (X • (H + D)) xcid →
      ∃ c, client1 K f sha date id sx pin token sec xid xcid permit = some c ∧ c.code = 0 ∧ Put1 K.pair.rom (T + (pin % 10000) • H + W) sec c.sec ∧
        PutOpt K.pair.rom (X • H) xid c.xid ∧ PutOpt K.pair.rom (X • (H + D)) xcid c.xcid) := by
  obtain ⟨P, e1, hP⟩ := hashPoint_ok h.g1 hs hH
  obtain ⟨Q, e2, hQ⟩ := Ecdh.frombytes_ok h.g1.dh hT
  have hHr := (mapsTo_prop h.g1 hH.2).2
  obtain ⟨V, e3, hV⟩ := C49_pinmul h.g1.dh.curve hP ((BitVec.ofNat 32 pin).srem 10000#32) 14 (by norm_num)
  rw [pin_mod hpin] at hV
  obtain ⟨U, e4, hU⟩ : ∃ U, permitPt K.pair.rom V permit = some U ∧ IsPoint K.pair.rom U W := by
    cases permit with
    | none => exact ⟨V, rfl, by rw [show W = _ from hW]; exact hV⟩
    | some p => exact Ecdh.frombytes_ok h.g1.dh hW
  unfold client1
  simp only [e1, e2, e3, e4, Option.bind_eq_bind, Option.bind_some, inf1 h.g1 hQ, if_neg hT0, if_pos hd, inf1 h.g1 hU]
  constructor
  · intro c; rw [if_pos c]; rfl
  · intro c hTr hWr hD hS hl hx hxc
    rw [if_neg c]
    obtain ⟨E, e5, hE⟩ := hashPoint_ok h.g1 hs hD
    have hDr := (mapsTo_prop h.g1 hD.2).2
    obtain ⟨w, e6, hw⟩ := enc1 h.g1 (C48_add h.g1.dh.curve (C48_add h.g1.dh.curve hQ hV) hU) hS
      (by rw [nsmul_add, nsmul_add, hTr, nsmul_left_comm, hHr, nsmul_zero, add_zero, hWr, add_zero]) hl
    have hsum : ordN K.pair.rom • X • (H + D) = 0 := by rw [nsmul_left_comm, nsmul_add, hHr, hDr, add_zero, nsmul_zero]
    simp only [e5, Option.bind_some]
    cases xid with
    | none =>
      obtain ⟨R, e7, hR⟩ := g1mul_ok' h (C48_add h.g1.dh.curve hP hE) (by rw [nsmul_add, hHr, hDr, add_zero]) hsx hX
      obtain ⟨v, e8, hv⟩ := put_ok h.g1 hR hsum hxc
      simp only [e7, e8, e6, Option.bind_some]
      exact ⟨_, rfl, rfl, hw, rfl, hv⟩
    | some b =>
      obtain ⟨f1, f2⟩ := hx b rfl
      obtain ⟨R, e7, hR⟩ := g1mul_ok' h hP hHr hsx hX
      obtain ⟨R', e7', hR'⟩ := g1mul_ok' h hE hDr hsx hX
      obtain ⟨u, e9, hu⟩ := enc1 h.g1 hR f1 (by rw [nsmul_left_comm, hHr, nsmul_zero]) f2
      have ha := C48_add h.g1.dh.curve hR hR'
      rw [← nsmul_add] at ha
      obtain ⟨v, e8, hv⟩ := put_ok h.g1 ha hsum hxc
      simp only [e7, e7', e9, e8, e6, Option.bind_some]
      exact ⟨_, rfl, rfl, hw, ⟨u, rfl, hu⟩, hv⟩

/-- `server_2` on well-formed points of the prime-order groups -/
theorem server2_ok (h : MpinCurve K) {check : Pt2 C → Pt C → Pt2 C → Pt C → Option Bool} (hc : AteOk K (gen2 h.mul) check) {date : Nat} {hid y sst msec u v : List Byte}
    {htid xid xcid : Option (List Byte)} {k : Nat} {U V M : (Ecp.curve K.pair.rom).Point} (hu : (if date ≠ 0 then xcid else xid) = some u) (hv : (if date ≠ 0 then htid else some hid) = some v)
    (hs : Enc2 K.pair sst (k • gen2 h.mul)) (hU : Decodes K.pair.rom u U) (hV : Decodes K.pair.rom v V) (hM : Decodes K.pair.rom msec M) (nU : U ≠ 0) (nV : V ≠ 0) (nM : M ≠ 0)
    (oU : ordN K.pair.rom • U = 0) (oV : ordN K.pair.rom • V = 0) (oM : ordN K.pair.rom • M = 0) (hy : num K.pair.rom y ≤ ordN K.pair.rom) (nS : num K.pair.rom y • V + U ≠ 0) :
    ∃ c, server2 check K date hid htid y sst xid xcid msec = some c ∧ (c = 0 ∨ c = -19) ∧ (c = 0 ↔ M + k • (num K.pair.rom y • V + U) = 0) := by
  obtain ⟨q, e1, hq, nq⟩ := dec2 h hs
  obtain ⟨a, e2, ha⟩ := Ecdh.frombytes_ok h.g1.dh hU
  obtain ⟨b, e3, hb⟩ := Ecdh.frombytes_ok h.g1.dh hV
  obtain ⟨m, e4, hm⟩ := Ecdh.frombytes_ok h.g1.dh hM
  obtain ⟨P, e5, hP⟩ := g1mul_ok' h hb oV (fromBytes_ok h.g1.dh y) hy
  obtain ⟨ok, e6, hok⟩ := hc q m _ M _ k hq nq hm nM oM (C48_add h.g1.dh.curve hP ha) nS (by rw [nsmul_add, nsmul_left_comm, oV, nsmul_zero, oU, add_zero])
  unfold server2
  simp only [e1, Option.bind_eq_bind, Option.bind_some, inf2 h hq, if_neg nq, hu, e2, inf1 h.g1 ha, if_neg nU, hv, e3, inf1 h.g1 hb, if_neg nV, e5, e4, inf1 h.g1 hm, if_neg nM, e6]
  refine ⟨_, rfl, ?_, ?_⟩
  · cases ok <;> simp
  · rw [← hok]; cases ok <;> simp

end
end Verif.Mpin
