import Verif.Gcm.Run
/-
Property theorems for AES-GCM (C27 – C30).
Model: `Verif/Gcm/Model.lean` on top of the AES model.  Specification: `Verif/Spec/Gcm.lean` (SP 800-38D)
over the FIPS-197 cipher of `Verif/Spec/Aes.lean`.  `g` is any GCM object, however it was used before.
-/
namespace Verif.Props
open Verif.Gcm
open Spec (Byte)

/-- a key of 16, 24 or 32 bytes -/
def GcmKey (key : List Byte) : Prop := key.length = 16 ∨ key.length = 24 ∨ key.length = 32

/-- the block cipher under the key -/
abbrev E (key : List Byte) : List Byte → List Byte := Spec.Aes.cipher (key.length / 4) key

theorem GcmKey.inv {key : List Byte} (hk : GcmKey key) (g : GCM) (iv : List Byte) :
    Inv (key.length / 4) key iv (init g key.length key iv.length iv) Spec.Gcm.start :=
  init_inv g key.length key iv (by rcases hk with h | h | h <;> rw [h] <;> simp) (by omega)

/-- C27, C30. Any sequence of `add_header`, `add_plain`, `add_cipher` calls after `init`, closed by `finish`,
returns call by call exactly what the specified session returns: acceptance, output bytes and final tag. -/
theorem C27_any_session (g : GCM) (key iv : List Byte) (hk : GcmKey key) (ops : List Spec.Gcm.Op) :
    run (init g key.length key iv.length iv) ops = Spec.Gcm.session (E key) iv Spec.Gcm.start ops :=
  run_ok ops (hk.inv g iv)

/-- C27. Header, plaintext, `finish`: the output is ciphertext and tag of SP 800-38D, for every IV length. -/
theorem C27_encrypt (g : GCM) (key iv header plain : List Byte) (hk : GcmKey key) :
    let g0 := init g key.length key iv.length iv
    let h := addHeader g0 header header.length
    let p := addPlain h.2 plain plain.length
    h.1 = true ∧ p.1 = true ∧
    (p.2.1, (finish p.2.2 true).1) = Spec.Gcm.encrypt (E key) iv header plain := by
  have h := C27_any_session g key iv hk [.header header, .plain plain]
  simp only [run, step, Spec.Gcm.session, Spec.Gcm.step, Spec.Gcm.start, if_true, List.nil_append, Prod.mk.injEq, List.cons.injEq, and_true] at h
  obtain ⟨⟨h1, h2⟩, h3⟩ := h
  rw [if_neg (by split <;> simp)] at h2
  rw [if_neg (by split <;> simp)] at h3
  simp only [Prod.mk.injEq] at h2
  refine ⟨h1, h2.1, ?_⟩
  rw [Spec.Gcm.encrypt]
  simp only [Prod.mk.injEq]
  exact ⟨h2.2, h3⟩

/-- C27. Only the first `len` bytes of a slice matter. -/
theorem C27_len_argument (g : GCM) (data : List Byte) (len : Nat) :
    addHeader g data len = addHeader g (data.take len) len ∧ addPlain g data len = addPlain g (data.take len) len ∧
    addCipher g data len = addCipher g (data.take len) len := by
  refine ⟨?_, ?_, ?_⟩
  · simp only [addHeader, List.take_take, Nat.min_self]
  · simp only [addPlain, List.take_take, Nat.min_self]
  · simp only [addCipher, List.take_take, Nat.min_self]

/-- The specification itself: test case 2 of the GCM paper (zero key, zero IV, one zero block). -/
example : Spec.Gcm.encrypt (E (List.replicate 16 0)) (List.replicate 12 0) [] (List.replicate 16 0) =
    ([0x03, 0x88, 0xda, 0xce, 0x60, 0xb6, 0xa3, 0x92, 0xf3, 0x28, 0xc2, 0xb9, 0x71, 0xb2, 0xfe, 0x78],
     [0xab, 0x6e, 0x47, 0xd4, 0x2c, 0xec, 0x13, 0xbd, 0xf5, 0x3a, 0x67, 0xb2, 0x12, 0x57, 0xbd, 0xdf]) := by
  decide +kernel

/-- C28. A second object with the same key, IV and header decrypts the ciphertext to the plaintext and
computes the same tag. -/
theorem C28_decrypt (g g' : GCM) (key iv header plain : List Byte) (hk : GcmKey key) :
    let enc := addPlain (addHeader (init g key.length key iv.length iv) header header.length).2 plain plain.length
    let dec := addCipher (addHeader (init g' key.length key iv.length iv) header header.length).2 enc.2.1 enc.2.1.length
    dec.1 = true ∧ dec.2.1 = plain ∧ (finish dec.2.2 true).1 = (finish enc.2.2 true).1 := by
  obtain ⟨_, _, he⟩ := C27_encrypt g key iv header plain hk
  rw [Spec.Gcm.encrypt, Prod.mk.injEq] at he
  obtain ⟨hc, ht⟩ := he
  intro enc dec
  have hE : ∀ x, (E key x).length = 16 := fun x => Aes.cipher_length (hk.inv g iv).keyed.hnk (hk.inv g iv).keyed.hl x
  have h := C27_any_session g' key iv hk [.header header, .cipher enc.2.1]
  simp only [run, step, Spec.Gcm.session, Spec.Gcm.step, Spec.Gcm.start, if_true, List.nil_append, Prod.mk.injEq, List.cons.injEq, and_true] at h
  obtain ⟨⟨h1, h2⟩, h3⟩ := h
  rw [if_neg (by split <;> simp)] at h2
  rw [if_neg (by split <;> simp)] at h3
  simp only [Prod.mk.injEq] at h2
  refine ⟨h2.1, h2.2.trans ?_, ?_⟩
  · show Spec.Gcm.gctr (E key) (Spec.Gcm.inc32 (Spec.Gcm.J0 (E key) iv)) enc.2.1 = plain
    rw [show enc.2.1 = _ from hc, gctr_gctr hE]
  · refine h3.trans ?_
    show Spec.Gcm.tag (E key) iv header enc.2.1 = _
    rw [show enc.2.1 = _ from hc]
    exact ht.symm

theorem session_append (F : List Byte → List Byte) (iv : List Byte) (s : Spec.Gcm.Session) (xs ys : List Spec.Gcm.Op) :
    Spec.Gcm.session F iv s (xs ++ ys) =
      let s' := xs.foldl (fun s op => (Spec.Gcm.step F iv s op).2) s
      ((Spec.Gcm.session F iv s xs).1 ++ (Spec.Gcm.session F iv s' ys).1, (Spec.Gcm.session F iv s' ys).2) := by
  induction xs generalizing s with
  | nil => rfl
  | cons x xs ih => simp only [List.cons_append, Spec.Gcm.session, ih, List.foldl_cons]

theorem header_chunks (F : List Byte → List Byte) (iv : List Byte) (hs : List (List Byte)) (hh : ∀ h ∈ hs, h.length % 16 = 0) (a : List Byte) :
    hs.foldl (fun s h => (Spec.Gcm.step F iv s (.header h)).2) ⟨.header, a, []⟩ = ⟨.header, a ++ hs.flatten, []⟩ ∧
    (Spec.Gcm.session F iv ⟨.header, a, []⟩ (hs.map .header)).1 = hs.map fun _ => (true, []) := by
  induction hs generalizing a with
  | nil => simp [Spec.Gcm.session]
  | cons h hs ih =>
    have e : Spec.Gcm.step F iv ⟨.header, a, []⟩ (.header h) = ((true, []), ⟨.header, a ++ h, []⟩) := by
      simp [Spec.Gcm.step, hh h (by simp)]
    obtain ⟨i1, i2⟩ := ih (fun x hx => hh x (by simp [hx])) (a ++ h)
    refine ⟨?_, ?_⟩
    · simp only [List.foldl_cons, e, i1, List.flatten_cons, List.append_assoc]
    · simp only [List.map_cons, Spec.Gcm.session, e, i2]

theorem plain_chunks (F : List Byte → List Byte) (hF : ∀ x, (F x).length = 16) (iv : List Byte) (ps : List (List Byte)) (hp : ∀ p ∈ ps, p.length % 16 = 0)
    (ph : Spec.Gcm.Phase) (hph : ph ≠ .closed) (a c : List Byte) (hc : c.length % 16 = 0) :
    ∃ ph', ph' ≠ .closed ∧
    ps.foldl (fun s p => (Spec.Gcm.step F iv s (.plain p)).2) ⟨ph, a, c⟩
      = ⟨ph', a, c ++ Spec.Gcm.gctr F (Spec.Gcm.incBy (c.length / 16 + 1) (Spec.Gcm.J0 F iv)) ps.flatten⟩ ∧
    (∀ r ∈ (Spec.Gcm.session F iv ⟨ph, a, c⟩ (ps.map .plain)).1, r.1 = true) ∧
    ((Spec.Gcm.session F iv ⟨ph, a, c⟩ (ps.map .plain)).1.map Prod.snd).flatten
      = Spec.Gcm.gctr F (Spec.Gcm.incBy (c.length / 16 + 1) (Spec.Gcm.J0 F iv)) ps.flatten := by
  induction ps generalizing ph c with
  | nil => exact ⟨ph, hph, by simp [Spec.Gcm.gctr], by simp [Spec.Gcm.session], by simp [Spec.Gcm.session, Spec.Gcm.gctr]⟩
  | cons p ps ih =>
    have hp16 := hp p (by simp)
    generalize hg : Spec.Gcm.gctr F (Spec.Gcm.incBy (c.length / 16 + 1) (Spec.Gcm.J0 F iv)) p = q
    have hq : q.length = p.length := by rw [← hg, gctr_length hF]
    have e : Spec.Gcm.step F iv ⟨ph, a, c⟩ (.plain p) = ((true, q), ⟨.text, a, c ++ q⟩) := by
      simp [Spec.Gcm.step, hph, hp16, hg]
    obtain ⟨ph', h1, h2, h3, h4⟩ := ih (fun x hx => hp x (by simp [hx])) .text (by simp) (c ++ q) (by simp [hq]; omega)
    have happ : Spec.Gcm.gctr F (Spec.Gcm.incBy (c.length / 16 + 1) (Spec.Gcm.J0 F iv)) (p ++ ps.flatten)
        = q ++ Spec.Gcm.gctr F (Spec.Gcm.incBy ((c ++ q).length / 16 + 1) (Spec.Gcm.J0 F iv)) ps.flatten := by
      rw [gctr_append hF _ _ _ hp16, hg, incBy_add]
      congr 3
      simp [hq]; omega
    refine ⟨ph', h1, ?_, ?_, ?_⟩
    · simp only [List.foldl_cons, e, h2, List.flatten_cons, happ, List.append_assoc]
    · simp only [List.map_cons, Spec.Gcm.session, e, List.mem_cons]
      rintro r (rfl | hr)
      · rfl
      · exact h3 r hr
    · simp only [List.map_cons, Spec.Gcm.session, e, List.flatten_cons, h4, happ]

/-- C29. Header and text split over several calls, every piece but the last of each a multiple of 16 bytes:
all calls are accepted and the concatenated output and the tag are those of one call each. -/
theorem C29_chunking (g : GCM) (key iv : List Byte) (hk : GcmKey key) (hs ps : List (List Byte)) (hlast plast : List Byte)
    (hh : ∀ h ∈ hs, h.length % 16 = 0) (hp : ∀ p ∈ ps, p.length % 16 = 0) :
    let r := run (init g key.length key iv.length iv)
      (hs.map .header ++ [.header hlast] ++ ps.map .plain ++ [.plain plast])
    (∀ x ∈ r.1, x.1 = true) ∧
    ((r.1.map Prod.snd).flatten, r.2) = Spec.Gcm.encrypt (E key) iv (hs.flatten ++ hlast) (ps.flatten ++ plast) := by
  have hE : ∀ x, (E key x).length = 16 := fun x => Aes.cipher_length (hk.inv g iv).keyed.hnk (hk.inv g iv).keyed.hl x
  intro r
  have hr : r = _ := C27_any_session g key iv hk _
  obtain ⟨a1, a2⟩ := header_chunks (E key) iv hs hh []
  have hfold1 : (hs.map Spec.Gcm.Op.header).foldl (fun s op => (Spec.Gcm.step (E key) iv s op).2) Spec.Gcm.start = ⟨.header, hs.flatten, []⟩ := by
    rw [List.foldl_map]; exact a1
  have hph : (if hlast.length % 16 = 0 then Spec.Gcm.Phase.header else .text) ≠ .closed := by split <;> simp
  obtain ⟨ph', b1, b2, b3, b4⟩ := plain_chunks (E key) hE iv ps hp (if hlast.length % 16 = 0 then Spec.Gcm.Phase.header else .text) hph
    (hs.flatten ++ hlast) [] rfl
  have hfold2 : (ps.map Spec.Gcm.Op.plain).foldl (fun s op => (Spec.Gcm.step (E key) iv s op).2) ⟨if hlast.length % 16 = 0 then Spec.Gcm.Phase.header else .text, hs.flatten ++ hlast, []⟩
      = ⟨ph', hs.flatten ++ hlast, [] ++ Spec.Gcm.gctr (E key) (Spec.Gcm.incBy (([] : List Byte).length / 16 + 1) (Spec.Gcm.J0 (E key) iv)) ps.flatten⟩ := by
    rw [List.foldl_map]; exact b2
  have hstep1 : Spec.Gcm.step (E key) iv ⟨.header, hs.flatten, []⟩ (.header hlast)
      = ((true, []), ⟨if hlast.length % 16 = 0 then Spec.Gcm.Phase.header else .text, hs.flatten ++ hlast, []⟩) := by
    simp [Spec.Gcm.step]
  rw [session_append, session_append, session_append] at hr
  simp only [List.foldl_append, List.foldl_cons, List.foldl_nil, hfold1, hstep1, hfold2] at hr
  simp only [Spec.Gcm.session, hstep1] at hr
  have hnil : (Spec.Gcm.session (E key) iv Spec.Gcm.start (hs.map .header)).1 = hs.map fun _ => (true, []) := a2
  rw [hnil] at hr
  have hst : ∀ C, Spec.Gcm.step (E key) iv ⟨ph', hs.flatten ++ hlast, C⟩ (.plain plast)
      = ((true, Spec.Gcm.gctr (E key) (Spec.Gcm.incBy (C.length / 16 + 1) (Spec.Gcm.J0 (E key) iv)) plast),
        ⟨if plast.length % 16 = 0 then .text else .closed, hs.flatten ++ hlast, C ++ Spec.Gcm.gctr (E key) (Spec.Gcm.incBy (C.length / 16 + 1) (Spec.Gcm.J0 (E key) iv)) plast⟩) := by
    intro C
    simp [Spec.Gcm.step, b1]
  simp only [hst] at hr
  have hpl : ps.flatten.length % 16 = 0 := by
    clear hr r hst b1 b2 b3 b4 hfold2
    induction ps with
    | nil => rfl
    | cons p ps ih =>
      have := ih (fun x hx => hp x (by simp [hx]))
      have := hp p (by simp)
      simp only [List.flatten_cons, List.length_append]; omega
  have hfull : Spec.Gcm.gctr (E key) (Spec.Gcm.inc32 (Spec.Gcm.J0 (E key) iv)) (ps.flatten ++ plast)
      = Spec.Gcm.gctr (E key) (Spec.Gcm.inc32 (Spec.Gcm.J0 (E key) iv)) ps.flatten
        ++ Spec.Gcm.gctr (E key) (Spec.Gcm.incBy (ps.flatten.length / 16 + 1) (Spec.Gcm.J0 (E key) iv)) plast := by
    rw [gctr_append hE _ _ _ hpl, incBy_inc32]
  refine ⟨?_, ?_⟩
  · rw [hr]
    intro x hx
    simp only [List.mem_append, List.mem_map, List.mem_cons, List.not_mem_nil, or_false] at hx
    rcases hx with ((⟨_, _, rfl⟩ | rfl) | hx) | rfl
    · rfl
    · rfl
    · exact b3 x hx
    · rfl
  · rw [hr, Spec.Gcm.encrypt]
    simp only [hfull, List.map_append, List.map_map, List.flatten_append, b4, List.map_cons, List.map_nil, List.flatten_cons, List.flatten_nil, List.append_nil,
      List.nil_append, List.length_nil, gctr_length hE]
    have hz : (hs.map (Prod.snd ∘ fun _ => ((true, []) : Bool × List Byte))).flatten = [] := by
      clear hr r a1 a2 hfold1 hstep1 hst hnil b1 b2 b3 b4 hfold2 hh
      induction hs with
      | nil => rfl
      | cons h hs ih => simpa using ih
    rw [hz, List.nil_append]
    rfl

/-- the object after some calls -/
def after (g : GCM) (ops : List Spec.Gcm.Op) : GCM := ops.foldl (fun g op => (step g op).2) g

theorem after_inv {nk : Nat} {key iv : List Byte} {g : GCM} {s : Spec.Gcm.Session} (h : Inv nk key iv g s) (ops : List Spec.Gcm.Op) :
    Inv nk key iv (after g ops) (ops.foldl (fun s op => (Spec.Gcm.step (Spec.Aes.cipher nk key) iv s op).2) s) := by
  induction ops generalizing g s with
  | nil => exact h
  | cons op ops ih => exact ih (step_ok h op).2

def rank : Spec.Gcm.Phase → Nat
  | .header => 0 | .text => 1 | .closed => 2

theorem rank_step (F : List Byte → List Byte) (iv : List Byte) (s : Spec.Gcm.Session) (op : Spec.Gcm.Op) : rank s.phase ≤ rank (Spec.Gcm.step F iv s op).2.phase := by
  cases op with
  | header h =>
    simp only [Spec.Gcm.step]
    by_cases hs : s.phase = .header
    · rw [if_pos hs, hs]; simp [rank]
    · rw [if_neg hs]
  | plain p =>
    simp only [Spec.Gcm.step]
    by_cases hs : s.phase = .closed
    · rw [if_pos hs]
    · rw [if_neg hs]
      by_cases h16 : p.length % 16 = 0
      · cases hq : s.phase <;> simp_all [rank]
      · cases hq : s.phase <;> simp_all [rank]
  | cipher p =>
    simp only [Spec.Gcm.step]
    by_cases hs : s.phase = .closed
    · rw [if_pos hs]
    · rw [if_neg hs]
      by_cases h16 : p.length % 16 = 0
      · cases hq : s.phase <;> simp_all [rank]
      · cases hq : s.phase <;> simp_all [rank]

theorem rank_steps (F : List Byte → List Byte) (iv : List Byte) (s : Spec.Gcm.Session) (ops : List Spec.Gcm.Op) :
    rank s.phase ≤ rank (ops.foldl (fun s op => (Spec.Gcm.step F iv s op).2) s).phase := by
  induction ops generalizing s with
  | nil => exact le_rfl
  | cons op ops ih => exact (rank_step F iv s op).trans (ih _)

/-- calls that start the text, or end the header with a partial block -/
def endsHeader : Spec.Gcm.Op → Prop
  | .header h => h.length % 16 ≠ 0
  | .plain _ => True
  | .cipher _ => True

/-- calls that end the text with a partial block -/
def endsText : Spec.Gcm.Op → Prop
  | .header _ => False
  | .plain p => p.length % 16 ≠ 0
  | .cipher c => c.length % 16 ≠ 0

/-- C30. Once text was given (even an empty piece) or a header piece was not a multiple of 16 bytes, header
data is refused and the object is unchanged, whatever calls lie in between. -/
theorem C30_header_refused (g : GCM) (key iv : List Byte) (hk : GcmKey key) (before between : List Spec.Gcm.Op) (op : Spec.Gcm.Op) (hop : endsHeader op)
    (h : List Byte) (len : Nat) :
    let g1 := after (init g key.length key iv.length iv) (before ++ op :: between)
    addHeader g1 h len = (false, g1) := by
  intro g1
  have hi := after_inv (hk.inv g iv) (before ++ op :: between)
  rw [show after _ _ = g1 from rfl] at hi
  have hr : 1 ≤ rank ((before ++ op :: between).foldl (fun s op => (Spec.Gcm.step (E key) iv s op).2) Spec.Gcm.start).phase := by
    rw [List.foldl_append, List.foldl_cons]
    refine le_trans ?_ (rank_steps _ _ _ _)
    generalize before.foldl _ Spec.Gcm.start = s
    cases op with
    | header x =>
      have hx : x.length % 16 ≠ 0 := hop
      simp only [Spec.Gcm.step]
      by_cases hs : s.phase = .header
      · rw [if_pos hs]; simp [rank, hx]
      · rw [if_neg hs]; cases hq : s.phase <;> simp_all [rank]
    | plain x =>
      simp only [Spec.Gcm.step]
      by_cases hs : s.phase = .closed
      · rw [if_pos hs]; simp [rank, hs]
      · rw [if_neg hs]; by_cases hx : x.length % 16 = 0 <;> simp [rank, hx]
    | cipher x =>
      simp only [Spec.Gcm.step]
      by_cases hs : s.phase = .closed
      · rw [if_pos hs]; simp [rank, hs]
      · rw [if_neg hs]; by_cases hx : x.length % 16 = 0 <;> simp [rank, hx]
  have hst : g1.status ≠ ACCEPTING_HEADER := by
    rw [hi.st]
    generalize ((before ++ op :: between).foldl (fun s op => (Spec.Gcm.step (E key) iv s op).2) Spec.Gcm.start).phase = ph at hr
    cases ph <;> simp_all [rank, code, ACCEPTING_HEADER, ACCEPTING_CIPHER, NOT_ACCEPTING_MORE]
  unfold addHeader
  rw [if_pos hst]

/-- C30. Once a text piece was not a multiple of 16 bytes, more text is refused and the object is unchanged. -/
theorem C30_text_refused (g : GCM) (key iv : List Byte) (hk : GcmKey key) (before between : List Spec.Gcm.Op) (op : Spec.Gcm.Op) (hop : endsText op)
    (t : List Byte) (len : Nat) :
    let g1 := after (init g key.length key iv.length iv) (before ++ op :: between)
    addPlain g1 t len = (false, [], g1) ∧ addCipher g1 t len = (false, [], g1) := by
  intro g1
  have hi := after_inv (hk.inv g iv) (before ++ op :: between)
  rw [show after _ _ = g1 from rfl] at hi
  have hr : 2 ≤ rank ((before ++ op :: between).foldl (fun s op => (Spec.Gcm.step (E key) iv s op).2) Spec.Gcm.start).phase := by
    rw [List.foldl_append, List.foldl_cons]
    refine le_trans ?_ (rank_steps _ _ _ _)
    generalize before.foldl _ Spec.Gcm.start = s
    cases op with
    | header x => exact hop.elim
    | plain x =>
      have hx : x.length % 16 ≠ 0 := hop
      simp only [Spec.Gcm.step]
      by_cases hs : s.phase = .closed
      · rw [if_pos hs]; simp [rank, hs]
      · rw [if_neg hs]; simp [rank, hx]
    | cipher x =>
      have hx : x.length % 16 ≠ 0 := hop
      simp only [Spec.Gcm.step]
      by_cases hs : s.phase = .closed
      · rw [if_pos hs]; simp [rank, hs]
      · rw [if_neg hs]; simp [rank, hx]
  have hst : g1.status = NOT_ACCEPTING_MORE := by
    rw [hi.st]
    generalize ((before ++ op :: between).foldl (fun s op => (Spec.Gcm.step (E key) iv s op).2) Spec.Gcm.start).phase = ph at hr
    cases ph <;> simp_all [rank, code]
  have h1 : ¬ g1.status = ACCEPTING_HEADER := by rw [hst]; decide
  have h2 : g1.status ≠ ACCEPTING_CIPHER := by rw [hst]; decide
  constructor
  · unfold addPlain; simp only [if_neg h1]; rw [if_pos h2]
  · unfold addCipher; simp only [if_neg h1]; rw [if_pos h2]

/-- C30. After `finish` everything is refused and the object is unchanged. -/
theorem C30_finished (g : GCM) (ex : Bool) (t : List Byte) (len : Nat) :
    let g1 := (finish g ex).2
    addHeader g1 t len = (false, g1) ∧ addPlain g1 t len = (false, [], g1) ∧ addCipher g1 t len = (false, [], g1) := by
  intro g1
  have hst : g1.status = FINISHED := finish_status g ex
  have h1 : ¬ g1.status = ACCEPTING_HEADER := by rw [hst]; decide
  have h2 : g1.status ≠ ACCEPTING_CIPHER := by rw [hst]; decide
  refine ⟨?_, ?_, ?_⟩
  · unfold addHeader; rw [if_pos h1]
  · unfold addPlain; simp only [if_neg h1]; rw [if_pos h2]
  · unfold addCipher; simp only [if_neg h1]; rw [if_pos h2]

/-- Non-vacuity: a key, and splittings as in C29. -/
example : GcmKey (List.replicate 24 (5 : Byte)) ∧ (∀ h ∈ [List.replicate 32 (1 : Byte), []], h.length % 16 = 0) ∧ endsText (.plain [1, 2, 3]) ∧ endsHeader (.cipher []) := by
  refine ⟨Or.inr (Or.inl rfl), by decide, ?_, trivial⟩
  show (3 : Nat) % 16 ≠ 0
  decide

end Verif.Props
