import Verif.Gcm.Session
/- Helper lemmas: `init`, every call, `finish`. -/
namespace Verif.Gcm
open Verif.Aes (AES wd bt Byte Keyed)
open Spec (beNat beBytes)
open Spec.Gcm (toBV ofBV mulX mul ghashFrom blocks lenBlock inc32 incBy gctr Session Phase hashKey J0)

/-- one call on the object, with the whole slice as data -/
def step (g : GCM) : Spec.Gcm.Op → (Bool × List Byte) × GCM
  | .header h => let r := addHeader g h h.length; ((r.1, []), r.2)
  | .plain p => let r := addPlain g p p.length; ((r.1, r.2.1), r.2.2)
  | .cipher c => let r := addCipher g c c.length; ((r.1, r.2.1), r.2.2)

/-- all calls, then `finish(true)` -/
def run : GCM → List Spec.Gcm.Op → List (Bool × List Byte) × List Byte
  | g, [] => ([], (finish g true).1)
  | g, op :: ops =>
    let r := step g op
    let rest := run r.2 ops
    (r.1 :: rest.1, rest.2)

def code : Phase → Nat
  | .header => ACCEPTING_HEADER
  | .text => ACCEPTING_CIPHER
  | .closed => NOT_ACCEPTING_MORE

/-- the object `g` is in the state of session `s` -/
structure Inv (nk : Nat) (key iv : List Byte) (g : GCM) (s : Session) : Prop where
  keyed : Keyed g.a nk key
  table : g.table = precompute (Spec.Aes.cipher nk key (List.replicate 16 0))
  sx : g.statex = ofBV (ghashFrom (hashKey (Spec.Aes.cipher nk key)) 0 (blocks s.a ++ blocks s.c))
  la : cnt g.lena = s.a.length % 2 ^ 64
  lc : cnt g.lenc = s.c.length % 2 ^ 64
  f : g.a.f = incBy ((s.c.length + 15) / 16) (J0 (Spec.Aes.cipher nk key) iv)
  y0 : g.y0 = J0 (Spec.Aes.cipher nk key) iv
  st : g.status = code s.phase
  ph : s.phase = .header → s.a.length % 16 = 0 ∧ s.c = []
  pt : s.phase = .text → s.c.length % 16 = 0

theorem J0_length (E : List Byte → List Byte) (iv : List Byte) : (J0 E iv).length = 16 := by
  unfold J0
  split
  · next h => simp [h]
  · exact ofBV_length _

theorem cnt0 : cnt (0, 0) = 0 := rfl
theorem cnt_zero : cnt (0, 0) = 0 % 2 ^ 64 := rfl
theorem ghashFrom_single (H Y X : BitVec 128) : ghashFrom H Y [X] = mul (Y ^^^ X) H := rfl
theorem hashKey_eq (E : List Byte → List Byte) : hashKey E = toBV (E (List.replicate 16 0)) := rfl
theorem toBV_zero : toBV (List.replicate 16 0) = 0 := by decide
theorem ofBV_zero : ofBV 0 = List.replicate 16 0 := by decide
theorem start_hash (H : BitVec 128) : List.replicate 16 0 = ofBV (ghashFrom H 0 (blocks [] ++ blocks [])) := ofBV_zero.symm

attribute [local irreducible] gf2mul precompute xorIn bumps cnt mul ghashFrom toBV ofBV lenBlock Spec.Aes.cipher J0 hashKey blocks

theorem wrap_eq (h : List Byte) (hh : h.length = 16) (g : GCM) (ht : g.table = precompute h) (X : BitVec 128) (hs : g.statex = ofBV X) (a c : Nat)
    (ha : cnt g.lena = a % 2 ^ 64) (hc : cnt g.lenc = c % 2 ^ 64) : wrap g = { g with statex := ofBV (mul (X ^^^ lenBlock a c) (toBV h)) } := by
  unfold wrap
  simp only []
  rw [lenBytes _ _ a c ha hc, hs, ht, gf2mul_eq h hh _ (by simp [ofBV_length]), toBV_xor _ _ (ofBV_length _) (ofBV_length _), toBV_ofBV, toBV_ofBV]

theorem aes_init_keyed (nk : Nat) (key : List Byte) (hnk : nk / 4 = 4 ∨ nk / 4 = 6 ∨ nk / 4 = 8) (hl : 4 * (nk / 4) ≤ key.length) :
    Keyed (Aes.init Aes.new Aes.ECB nk key none).2 (nk / 4) key := Aes.init_keyed _ rfl _ _ _ _ hnk hl

theorem init_inv (g : GCM) (nk : Nat) (key iv : List Byte) (hnk : nk / 4 = 4 ∨ nk / 4 = 6 ∨ nk / 4 = 8) (hl : 4 * (nk / 4) ≤ key.length) :
    Inv (nk / 4) key iv (init g nk key iv.length iv) Spec.Gcm.start := by
  have hk := aes_init_keyed nk key hnk hl
  have hh : Aes.ecbEncrypt (Aes.init Aes.new Aes.ECB nk key none).2 (List.replicate 16 0) = Spec.Aes.cipher (nk / 4) key (List.replicate 16 0) :=
    Aes.ecbEncrypt_eq hk _ rfl
  have hhl := Aes.cipher_length hnk hl (List.replicate 16 0)
  generalize hA : (Aes.init Aes.new Aes.ECB nk key none).2 = A at hk hh
  by_cases h12 : iv.length = 12
  · have e : init g nk key iv.length iv = { g with statex := List.replicate 16 0, a := { A with f := iv.take 12 ++ unpack 1 }, table := precompute (Spec.Aes.cipher (nk / 4) key (List.replicate 16 0)), lena := (0, 0), lenc := (0, 0), y0 := iv.take 12 ++ unpack 1, status := ACCEPTING_HEADER } := by
      unfold init
      simp only [hA, hh, if_pos h12]
    have ej : J0 (Spec.Aes.cipher (nk / 4) key) iv = iv.take 12 ++ unpack 1 := by
      rw [J0, if_pos h12, List.take_of_length_le (by omega)]
      rfl
    rw [e]
    refine ⟨⟨hk.hnk, hk.hl, hk.nr, hk.fk, hk.rk⟩, rfl, ?_, cnt_zero, cnt_zero, ?_, ?_, rfl, fun _ => ⟨rfl, rfl⟩, fun h => by cases h⟩
    · exact start_hash _
    · exact ej.symm
    · exact ej.symm
  · generalize hg0 : ({ g with statex := List.replicate 16 0, a := A, table := precompute (Spec.Aes.cipher (nk / 4) key (List.replicate 16 0)), lena := (0, 0), lenc := (0, 0), status := ACCEPTING_CIPHER } : GCM) = g0
    obtain ⟨l, hl1, hl2⟩ := ghashLoop_eq _ hhl iv g0 (by rw [← hg0]) (by rw [← hg0]; rfl)
    have c0 : cnt g0.lenc = 0 := by rw [← hg0]; exact cnt0
    have ca0 : cnt g0.lena = 0 % 2 ^ 64 := by rw [← hg0]; exact cnt_zero
    have ht0 : g0.table = precompute (Spec.Aes.cipher (nk / 4) key (List.replicate 16 0)) := by rw [← hg0]
    rw [c0, Nat.zero_add] at hl1
    have hsx : toBV g0.statex = 0 := by rw [← hg0]; exact toBV_zero
    rw [hsx] at hl2
    -- status does not matter for `wrap`
    have hw : ∀ st, wrap { g0 with statex := ofBV (ghashFrom (toBV (Spec.Aes.cipher (nk / 4) key (List.replicate 16 0))) 0 (blocks iv)), lenc := l, status := st }
        = { g0 with statex := J0 (Spec.Aes.cipher (nk / 4) key) iv, lenc := l, status := st } := by
      intro st
      rw [wrap_eq _ hhl { g0 with statex := ofBV (ghashFrom (toBV (Spec.Aes.cipher (nk / 4) key (List.replicate 16 0))) 0 (blocks iv)), lenc := l, status := st } ht0 _ rfl 0 iv.length ca0 hl1]
      have : J0 (Spec.Aes.cipher (nk / 4) key) iv = ofBV (mul (ghashFrom (toBV (Spec.Aes.cipher (nk / 4) key (List.replicate 16 0))) 0 (blocks iv) ^^^ lenBlock 0 iv.length)
          (toBV (Spec.Aes.cipher (nk / 4) key (List.replicate 16 0)))) := by
        rw [J0, if_neg h12, Spec.Gcm.ghash, ghashFrom_append, ghashFrom_single, hashKey_eq]
      rw [this]
    have hgh : (ghash g0 iv iv.length).2 = { g0 with statex := ofBV (ghashFrom (toBV (Spec.Aes.cipher (nk / 4) key (List.replicate 16 0))) 0 (blocks iv)), lenc := l, status := if iv.length % 16 ≠ 0 then NOT_ACCEPTING_MORE else ACCEPTING_CIPHER } := by
      have hs0 : g0.status = ACCEPTING_CIPHER := by rw [← hg0]
      have hs1 : ¬ g0.status = ACCEPTING_HEADER := by rw [hs0]; decide
      unfold ghash
      have h10 : ¬ ACCEPTING_CIPHER = ACCEPTING_HEADER := by decide
      simp only [hs0, if_neg h10, ne_eq, not_true_eq_false, if_false, List.take_length, hl2]
      by_cases hm : iv.length % 16 = 0
      · simp only [hm, not_true_eq_false, if_false]
      · simp only [hm, not_false_eq_true, if_true]
    have e : init g nk key iv.length iv = { g0 with a := { A with f := J0 (Spec.Aes.cipher (nk / 4) key) iv }, y0 := J0 (Spec.Aes.cipher (nk / 4) key) iv, statex := List.replicate 16 0, lena := (0, 0), lenc := (0, 0), status := ACCEPTING_HEADER } := by
      unfold init
      simp only [hA, hh, if_neg h12]
      rw [hg0, hgh, hw]
      rw [← hg0]
    rw [e]
    refine ⟨⟨hk.hnk, hk.hl, hk.nr, hk.fk, hk.rk⟩, ht0, ?_, cnt_zero, cnt_zero, rfl, rfl, rfl, fun _ => ⟨rfl, rfl⟩, fun h => by cases h⟩
    exact start_hash _

section
variable {nk : Nat} {key iv : List Byte} {g : GCM} {s : Session}

theorem Inv.sxl (h : Inv nk key iv g s) : g.statex.length = 16 := by rw [h.sx, ofBV_length]
theorem Inv.fl (h : Inv nk key iv g s) : g.a.f.length = 16 := by rw [h.f]; exact incBy_length _ _ (J0_length _ _)
theorem Inv.hl (h : Inv nk key iv g s) : (Spec.Aes.cipher nk key (List.replicate 16 0)).length = 16 := Aes.cipher_length h.keyed.hnk h.keyed.hl _

theorem header_step (h : Inv nk key iv g s) (x : List Byte) :
    (step g (.header x)).1 = (Spec.Gcm.step (Spec.Aes.cipher nk key) iv s (.header x)).1 ∧
    Inv nk key iv (step g (.header x)).2 (Spec.Gcm.step (Spec.Aes.cipher nk key) iv s (.header x)).2 := by
  simp only [step, Spec.Gcm.step]
  by_cases hp : s.phase = .header
  · have hs : g.status = ACCEPTING_HEADER := by rw [h.st, hp]; rfl
    obtain ⟨l, hl1, hl2⟩ := headerLoop_eq _ h.hl x g h.table h.sxl
    obtain ⟨ha, hc⟩ := h.ph hp
    have e : addHeader g x x.length = (true, { g with statex := ofBV (ghashFrom (toBV (Spec.Aes.cipher nk key (List.replicate 16 0))) (toBV g.statex) (blocks x)), lena := l, status := if x.length % 16 ≠ 0 then ACCEPTING_CIPHER else ACCEPTING_HEADER }) := by
      unfold addHeader
      rw [if_neg (by simp [hs]), List.take_length, hl2]
      simp only []
      split <;> simp [hs]
    rw [e, if_pos hp]
    refine ⟨rfl, ⟨h.keyed, h.table, ?_, ?_, h.lc, h.f, h.y0, ?_, ?_, ?_⟩⟩
    · simp only [hc, blocks_nil, List.append_nil]
      rw [blocks_append _ _ ha, ghashFrom_append, h.sx, toBV_ofBV, hc, blocks_nil, List.append_nil, hashKey_eq]
    · simp only [hl1, h.la, List.length_append]
      omega
    · simp only []
      by_cases hx : x.length % 16 = 0
      · simp [hx, code]
      · simp [hx, code]
    · simp only []
      intro hph
      by_cases hx : x.length % 16 = 0
      · refine ⟨?_, hc⟩
        simp only [List.length_append]
        omega
      · simp [hx] at hph
    · intro _
      simp [hc]
  · have hs : g.status ≠ ACCEPTING_HEADER := by
      rw [h.st]
      cases hq : s.phase with
      | header => exact absurd hq hp
      | text => decide
      | closed => decide
    have e : addHeader g x x.length = (false, g) := by
      unfold addHeader; rw [if_pos hs]
    rw [e, if_neg hp]
    exact ⟨rfl, h⟩

theorem text_status (h : Inv nk key iv g s) (hp : s.phase ≠ .closed) :
    s.c.length % 16 = 0 ∧ (if g.status = ACCEPTING_HEADER then { g with status := ACCEPTING_CIPHER } else g) = { g with status := ACCEPTING_CIPHER } := by
  cases hq : s.phase with
  | header =>
    obtain ⟨_, hc⟩ := h.ph hq
    refine ⟨by simp [hc], ?_⟩
    rw [if_pos (by rw [h.st, hq]; rfl)]
  | text =>
    refine ⟨h.pt hq, ?_⟩
    have hs : g.status = ACCEPTING_CIPHER := by rw [h.st, hq]; rfl
    rw [if_neg (by rw [hs]; decide), ← hs]
  | closed => exact absurd hq hp

theorem closed_status (h : Inv nk key iv g s) (hp : s.phase = .closed) :
    (if g.status = ACCEPTING_HEADER then { g with status := ACCEPTING_CIPHER } else g) = g ∧ g.status ≠ ACCEPTING_CIPHER := by
  have hs : g.status = NOT_ACCEPTING_MORE := by rw [h.st, hp]; rfl
  exact ⟨by rw [if_neg (by rw [hs]; decide)], by rw [hs]; decide⟩

/-- the invariant after ciphertext `c` was absorbed -/
theorem text_inv (h : Inv nk key iv g s) (hc : s.c.length % 16 = 0) (c : List Byte) (n : Nat) (hn : c.length = n) (l : BitVec 32 × BitVec 32)
    (hl1 : cnt l = (cnt g.lenc + n) % 2 ^ 64) :
    Inv nk key iv { upd g (incBy ((n + 15) / 16) g.a.f) (ofBV (ghashFrom (toBV (Spec.Aes.cipher nk key (List.replicate 16 0))) (toBV g.statex) (blocks c))) l with status := if n % 16 ≠ 0 then NOT_ACCEPTING_MORE else ACCEPTING_CIPHER }
      { s with c := s.c ++ c, phase := if n % 16 = 0 then .text else .closed } := by
  refine ⟨⟨h.keyed.hnk, h.keyed.hl, h.keyed.nr, h.keyed.fk, h.keyed.rk⟩, h.table, ?_, h.la, ?_, ?_, h.y0, ?_, ?_, ?_⟩
  · simp only [upd]
    rw [blocks_append _ _ hc, ← List.append_assoc, ghashFrom_append, h.sx, toBV_ofBV, hashKey_eq]
  · simp only [upd, hl1, h.lc, List.length_append]
    omega
  · simp only [upd, h.f, incBy_add, List.length_append]
    congr 1
    omega
  · by_cases hx : n % 16 = 0
    · simp [hx, code]
    · simp [hx, code]
  · intro hph
    by_cases hx : n % 16 = 0
    · simp [hx] at hph
    · simp [hx] at hph
  · intro hph
    by_cases hx : n % 16 = 0
    · simp only [List.length_append]
      omega
    · simp [hx] at hph

theorem icb_eq (h : Inv nk key iv g s) (hc : s.c.length % 16 = 0) : inc32 g.a.f = incBy (s.c.length / 16 + 1) (J0 (Spec.Aes.cipher nk key) iv) := by
  rw [h.f, incBy, show (s.c.length + 15) / 16 = s.c.length / 16 by omega]

theorem Inv.setStatus (h : Inv nk key iv g s) (st : Nat) : Keyed ({ g with status := st } : GCM).a nk key := h.keyed

theorem plain_step (h : Inv nk key iv g s) (x : List Byte) :
    (step g (.plain x)).1 = (Spec.Gcm.step (Spec.Aes.cipher nk key) iv s (.plain x)).1 ∧
    Inv nk key iv (step g (.plain x)).2 (Spec.Gcm.step (Spec.Aes.cipher nk key) iv s (.plain x)).2 := by
  simp only [step, Spec.Gcm.step]
  by_cases hp : s.phase = .closed
  · obtain ⟨h1, h2⟩ := closed_status h hp
    have e : addPlain g x x.length = (false, [], g) := by
      unfold addPlain
      simp only [h1]
      rw [if_pos h2]
    rw [e, if_pos hp]
    exact ⟨rfl, h⟩
  · obtain ⟨hc, h1⟩ := text_status h hp
    have hE : ∀ y, (Spec.Aes.cipher nk key y).length = 16 := fun y => Aes.cipher_length h.keyed.hnk h.keyed.hl y
    obtain ⟨l, hl1, hl2⟩ := plainLoop_eq _ h.hl x { g with status := ACCEPTING_CIPHER } [] h.keyed h.table h.sxl h.fl
    have e : addPlain g x x.length = (true, gctr (Spec.Aes.cipher nk key) (inc32 g.a.f) x,
        { upd g (incBy ((x.length + 15) / 16) g.a.f) (ofBV (ghashFrom (toBV (Spec.Aes.cipher nk key (List.replicate 16 0))) (toBV g.statex) (blocks (gctr (Spec.Aes.cipher nk key) (inc32 g.a.f) x)))) l with status := if x.length % 16 ≠ 0 then NOT_ACCEPTING_MORE else ACCEPTING_CIPHER }) := by
      unfold addPlain
      simp only [h1, ne_eq, not_true_eq_false, if_false, List.take_length, hl2, List.nil_append]
      split <;> simp [upd]
    rw [e, if_neg hp, icb_eq h hc]
    refine ⟨rfl, ?_⟩
    have := text_inv h hc (gctr (Spec.Aes.cipher nk key) (inc32 g.a.f) x) x.length (gctr_length hE _ _) l hl1
    rw [icb_eq h hc] at this
    exact this

theorem cipher_step (h : Inv nk key iv g s) (x : List Byte) :
    (step g (.cipher x)).1 = (Spec.Gcm.step (Spec.Aes.cipher nk key) iv s (.cipher x)).1 ∧
    Inv nk key iv (step g (.cipher x)).2 (Spec.Gcm.step (Spec.Aes.cipher nk key) iv s (.cipher x)).2 := by
  simp only [step, Spec.Gcm.step]
  by_cases hp : s.phase = .closed
  · obtain ⟨h1, h2⟩ := closed_status h hp
    have e : addCipher g x x.length = (false, [], g) := by
      unfold addCipher
      simp only [h1]
      rw [if_pos h2]
    rw [e, if_pos hp]
    exact ⟨rfl, h⟩
  · obtain ⟨hc, h1⟩ := text_status h hp
    obtain ⟨l, hl1, hl2⟩ := cipherLoop_eq _ h.hl x { g with status := ACCEPTING_CIPHER } [] h.keyed h.table h.sxl h.fl
    have e : addCipher g x x.length = (true, gctr (Spec.Aes.cipher nk key) (inc32 g.a.f) x,
        { upd g (incBy ((x.length + 15) / 16) g.a.f) (ofBV (ghashFrom (toBV (Spec.Aes.cipher nk key (List.replicate 16 0))) (toBV g.statex) (blocks x))) l with status := if x.length % 16 ≠ 0 then NOT_ACCEPTING_MORE else ACCEPTING_CIPHER }) := by
      unfold addCipher
      simp only [h1, ne_eq, not_true_eq_false, if_false, List.take_length, hl2, List.nil_append]
      split <;> simp [upd]
    rw [e, if_neg hp, icb_eq h hc]
    exact ⟨rfl, text_inv h hc x x.length rfl l hl1⟩

theorem step_ok (h : Inv nk key iv g s) (op : Spec.Gcm.Op) :
    (step g op).1 = (Spec.Gcm.step (Spec.Aes.cipher nk key) iv s op).1 ∧
    Inv nk key iv (step g op).2 (Spec.Gcm.step (Spec.Aes.cipher nk key) iv s op).2 := by
  cases op with
  | header x => exact header_step h x
  | plain x => exact plain_step h x
  | cipher x => exact cipher_step h x

theorem finish_tag (h : Inv nk key iv g s) : (finish g true).1 = Spec.Gcm.tag (Spec.Aes.cipher nk key) iv s.a s.c := by
  have hE : ∀ y, (Spec.Aes.cipher nk key y).length = 16 := fun y => Aes.cipher_length h.keyed.hnk h.keyed.hl y
  unfold finish
  rw [wrap_eq _ h.hl g h.table _ h.sx _ _ h.la h.lc]
  simp only [if_true]
  rw [h.y0, Aes.ecbEncrypt_eq h.keyed _ (J0_length _ _), Spec.Gcm.tag, Spec.Gcm.ghash, ghashFrom_append _ _ (blocks s.a ++ blocks s.c), ghashFrom_single, hashKey_eq]
  rw [gctr_cons hE _ _ (by intro e; have := congrArg List.length e; rw [ofBV_length] at this; simp at this),
    List.take_of_length_le (by rw [ofBV_length]), List.drop_of_length_le (by rw [ofBV_length]), gctr_nil hE, List.append_nil,
    List.zipWith_comm_of_comm (fun a b => BitVec.xor_comm a b)]

theorem run_ok (ops : List Spec.Gcm.Op) : ∀ {g : GCM} {s : Session}, Inv nk key iv g s → run g ops = Spec.Gcm.session (Spec.Aes.cipher nk key) iv s ops := by
  induction ops with
  | nil => intro g s h; simp only [run, Spec.Gcm.session, finish_tag h]
  | cons op ops ih =>
    intro g s h
    obtain ⟨h1, h2⟩ := step_ok h op
    simp only [run, Spec.Gcm.session, h1, ih h2]

end

theorem finish_status (g : GCM) (ex : Bool) : (finish g ex).2.status = FINISHED := rfl

end Verif.Gcm
