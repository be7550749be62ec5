import Verif.Bls.SchemeOk
import Verif.Props.Bls
/-
Property theorems for the BLS signature schemes: C45 (signatures verify, aggregate, and verification is exact), C46 (malformed input).
The theorems are about any backend that implements a pairing setting (`BackendOk`, Spec/BlsScheme.lean).
-/
namespace Verif.Props
open Verif.Big Verif.Rom Verif.Ecp Verif.Ecdh Verif.H2c Verif.Bls
open Spec (Byte)

variable {C : Nat} {A B T V S : Type} [AddCommGroup A] [AddCommGroup B] [AddCommGroup T]
  {K : Rom C} [hp : Fact K.p.Prime] {Bk : Backend C V S} {P : Setting A B T} {dv : V → A → Prop} {ds : S → B → Prop} {EA : Enc A} {EB : Enc B}

/-! ### C45: single signatures -/

/-- C45. The public key of the secret key `n` is the encoding of `n·g`, the signature of `m` the encoding of `n·H(m)`. -/
theorem C45_values (hK : BlsCurve K) (hB : BackendOk K Bk P dv ds EA EB) {sk : List Byte} (hs : SkOk K sk) (m d : List Byte) :
    secretKeyToPublicKey K Bk sk = some (.ok (EA.c (skNum sk • P.g))) ∧ coreSign K Bk sk m d = some (.ok (EB.c (skNum sk • P.H m d))) :=
  ⟨pk_ok hK hB hs, sign_ok hK hB hs m d⟩

/-- C45. Key strings of another length or not below the order are refused by all functions that take one, with the code of C43. -/
theorem C45_bad_secret (hK : BlsCurve K) {sk : List Byte} (hs : ¬ SkOk K sk) (m d : List Byte) :
    let e := if sk.length = 32 then Err.invalidSecretKeyRange else Err.invalidSecretKeySize
    secretKeyToPublicKey K Bk sk = some (.error e) ∧ coreSign K Bk sk m d = some (.error e) ∧ Pop.popProve K Bk d sk = some (.error e) := by
  obtain ⟨e, h1, h2⟩ := sk_error hK hs
  subst h2
  unfold secretKeyToPublicKey coreSign Pop.popProve
  rw [h1]
  exact ⟨rfl, rfl, rfl⟩

/-- C45. Verification accepts exactly the pairs of encodings of subgroup elements `a`, `b` with `e(a, H(m)) = e(g, b)`; it never panics. -/
theorem C45_verify_exact (hB : BackendOk K Bk P dv ds EA EB) (pk m sig d : List Byte) :
    ∃ v, coreVerify Bk pk m sig d = some v ∧
      (v = true ↔ ∃ a b, EA.is a pk ∧ EB.is b sig ∧ a ∈ P.SA ∧ b ∈ P.SB ∧ P.e a (P.H m d) = P.e P.g b) := verify_iff hB pk m sig d

/-- C45. Under the public key of `n` exactly the encodings of the point `n·H(m)` are accepted. -/
theorem C45_unique (hK : BlsCurve K) (hB : BackendOk K Bk P dv ds EA EB) {sk pk : List Byte} (hs : SkOk K sk)
    (hpk : secretKeyToPublicKey K Bk sk = some (.ok pk)) (m sig d : List Byte) :
    coreVerify Bk pk m sig d = some true ↔ EB.is (skNum sk • P.H m d) sig := by
  rw [pk_ok hK hB hs] at hpk
  injection hpk with hpk; injection hpk with hpk
  obtain ⟨v, h1, h2⟩ := verify_iff hB pk m sig d
  have hm := hB.ok.H_mem m d
  have hmem := hB.ok.nsmulB hm (skNum sk)
  have hE : EA.is (skNum sk • P.g) pk := Or.inl hpk.symm
  have key : P.e (skNum sk • P.g) (P.H m d) = P.e P.g (skNum sk • P.H m d) := by
    rw [hB.ok.e_nsmulL hB.ok.g_mem hm, hB.ok.e_nsmulR hB.ok.g_mem hm]
  rw [h1]
  constructor
  · intro e
    injection e with e
    obtain ⟨a, b, i1, i2, i3, i4, i5⟩ := h2.mp e
    rw [hB.pk.enc_inj i1 hE, key] at i5
    rw [hB.ok.e_inj hmem i4 i5]
    exact i2
  · intro e
    rw [h2.mpr ⟨_, _, hE, e, hB.ok.nsmulA hB.ok.g_mem _, hmem, key⟩]

/-- C45. Signatures verify, in all three schemes: for every secret key and message. -/
theorem C45_verify (hK : BlsCurve K) (hB : BackendOk K Bk P dv ds EA EB) {sk : List Byte} (hs : SkOk K sk) (m d : List Byte) :
    ∃ pk, secretKeyToPublicKey K Bk sk = some (.ok pk) ∧
      (∃ s, Basic.sign K Bk d sk m = some (.ok s) ∧ Basic.verify Bk d pk m s = some true) ∧
      (∃ s, Aug.sign K Bk d sk m pk = some (.ok s) ∧ Aug.verify Bk d pk m s = some true) ∧
      (∃ s, Pop.sign K Bk d sk m = some (.ok s) ∧ Pop.verify Bk d pk m s = some true) := by
  have h1 := pk_ok hK hB hs
  refine ⟨_, h1, ⟨_, sign_ok hK hB hs m d, ?_⟩, ⟨_, sign_ok hK hB hs _ d, ?_⟩, ⟨_, sign_ok hK hB hs m d, ?_⟩⟩
  · exact (C45_unique hK hB hs h1 m _ d).mpr (Or.inl rfl)
  · exact (C45_unique hK hB hs h1 _ _ d).mpr (Or.inl rfl)
  · exact (C45_unique hK hB hs h1 m _ d).mpr (Or.inl rfl)

/-- C45. Generated key pairs: the 32 bytes drawn are the keying material of `key_generate`, the secret key is always valid, and the
public key belongs to it (`expect` never fires). -/
theorem C45_key_pair {σ : Type} (next : σ → Byte × σ) (hK : BlsCurve K) (hB : BackendOk K Bk P dv ds EA EB) (rng : σ) :
    ∃ ikm sk rng', ikm.length = 32 ∧ keyGenerate K ikm [] = some sk ∧ SkOk K sk ∧
      Bls.keyPairGenerate next K Bk rng = some (sk, EA.c (skNum sk • P.g), rng') := by
  have aux : ∀ (n : Nat) (st : List Byte × σ), ((List.range n).foldl (fun (st : List Byte × σ) _ => let b := next st.2; (st.1 ++ [b.1], b.2)) st).1.length = st.1.length + n := by
    intro n
    induction n with
    | zero => intro st; simp
    | succ n ih => intro st; rw [List.range_succ, List.foldl_append]; simp [ih]; omega
  have hg := fun ikm => (C43_keygen hK ikm []).1
  have hlt : ∀ ikm, keyGen (ordN K) ikm [] < ordN K := fun ikm => Nat.mod_lt _ (by have := hK.dh.R_pos; omega)
  have hsk : ∀ ikm, SkOk K (Spec.beBytes 32 (keyGen (ordN K) ikm [])) := by
    intro ikm
    refine ⟨Spec.beBytes_length _ _, ?_⟩
    unfold skNum
    rw [Spec.beNat_beBytes, Nat.mod_eq_of_lt (lt_trans (hlt ikm) hK.order)]
    exact hlt ikm
  have h32 := aux 32 ([], rng)
  unfold Bls.keyPairGenerate
  dsimp only
  generalize (List.range 32).foldl (fun (st : List Byte × σ) _ => (st.1 ++ [(next st.2).1], (next st.2).2)) ([], rng) = r at h32 ⊢
  refine ⟨r.1, _, r.2, by simpa using h32, hg _, hsk _, ?_⟩
  rw [hg]
  simp only [bind, Option.bind_some]
  rw [pk_ok hK hB (hsk _)]
  rfl

/-! ### C45: aggregation -/

/-- C45. The aggregate of encodings of subgroup elements is the encoding of their sum; anything undecodable in the list is an error,
and so is the empty list. -/
theorem C45_aggregate_sum (hB : BackendOk K Bk P dv ds EA EB) {sigs : List (List Byte)} {bs : List B}
    (hf : List.Forall₂ (fun s b => EB.is b s) sigs bs) (hm : ∀ b ∈ bs, b ∈ P.SB) (hne : sigs ≠ []) :
    aggregate Bk sigs = .ok (EB.c bs.sum) := by
  obtain ⟨g, hg⟩ := hB.sg
  cases hf with
  | nil => exact absurd rfl hne
  | cons h1 h2 =>
    rename_i s b ss bs'
    obtain ⟨x, k1, k2⟩ := hg.decode h1
    obtain ⟨y, k3, k4⟩ := sumPoints_ok hg h2 k2
    have hs : (b :: bs').sum ∈ P.SB := sum_mem hB.ok.zeroB hB.ok.addB hm
    rw [List.sum_cons] at hs ⊢
    rw [aggregate, k1]
    dsimp only
    rw [k3]
    dsimp only
    rw [hg.ser k4 hs]

theorem C45_aggregate_error (hB : BackendOk K Bk P dv ds EA EB) :
    aggregate Bk [] = .error .aggregateEmptyPoints ∧
    ∀ sigs : List (List Byte), (∃ s ∈ sigs, ∀ b, ¬ EB.is b s) → ∃ e, aggregate Bk sigs = .error e := by
  obtain ⟨g, hg⟩ := hB.sg
  refine ⟨rfl, fun sigs h => ?_⟩
  cases sigs with
  | nil => obtain ⟨s, hs, _⟩ := h; cases hs
  | cons s ss =>
    obtain ⟨q, hq, hn⟩ := h
    rw [aggregate]
    rcases hg.deser_iff s with ⟨y, a, h1, h2, h3, h4⟩ | ⟨⟨e, h1⟩, h2⟩
    · rw [h1]
      rcases List.mem_cons.mp hq with e | e
      · subst e; exact absurd h3 (hn a)
      · obtain ⟨er, h5⟩ := sumPoints_err hg y ⟨q, e, hn⟩
        dsimp only
        rw [h5]
        exact ⟨er, rfl⟩
    · rw [h1]; exact ⟨e, rfl⟩

/-- C45. Aggregate verification accepts exactly: as many keys as messages and at least one, all keys encodings of subgroup elements, the
signature an encoding of a subgroup element, and `Σ e(aᵢ, H(mᵢ)) = e(g, b)`.  It never panics. -/
theorem C45_aggregate_exact (hB : BackendOk K Bk P dv ds EA EB) (pks msgs : List (List Byte)) (sig d : List Byte) :
    ∃ v, coreAggregateVerify Bk pks msgs sig d = some v ∧
    (v = true ↔ pks ≠ [] ∧ pks.length = msgs.length ∧ ∃ as b, List.Forall₂ (fun k a => EA.is a k ∧ a ∈ P.SA) pks as ∧ EB.is b sig ∧ b ∈ P.SB ∧
      (List.zipWith (fun a m => P.e a (P.H m d)) as msgs).sum = P.e P.g b) := aggVerify_iff hB pks msgs sig d

/-- the keys and messages of a list of signers: secret key, message -/
abbrev Signers := List (List Byte × List Byte)

theorem keys_of (hK : BlsCurve K) (hB : BackendOk K Bk P dv ds EA EB) : ∀ {ps : Signers} {pks : List (List Byte)}, (∀ p ∈ ps, SkOk K p.1) →
    List.Forall₂ (fun p pk => secretKeyToPublicKey K Bk p.1 = some (.ok pk)) ps pks →
    pks = ps.map (fun p => EA.c (skNum p.1 • P.g)) ∧ List.Forall₂ (fun k a => EA.is a k ∧ a ∈ P.SA) pks ((ps.map fun p => skNum p.1).map (· • P.g)) := by
  intro ps
  induction ps with
  | nil => intro pks _ h; cases h; exact ⟨rfl, .nil⟩
  | cons p ps ih =>
    intro pks ho h
    cases h with
    | cons h1 h2 =>
      obtain ⟨e, f⟩ := ih (fun q hq => ho q (List.mem_cons_of_mem _ hq)) h2
      rw [pk_ok hK hB (ho p (List.mem_cons_self ..))] at h1
      injection h1 with h1; injection h1 with h1
      subst h1
      exact ⟨by rw [List.map_cons, e], .cons ⟨Or.inl rfl, hB.ok.nsmulA hB.ok.g_mem _⟩ f⟩

theorem sigs_of (hK : BlsCurve K) (hB : BackendOk K Bk P dv ds EA EB) (d : List Byte) : ∀ {ps : Signers} {sigs : List (List Byte)}, (∀ p ∈ ps, SkOk K p.1) →
    List.Forall₂ (fun p s => coreSign K Bk p.1 p.2 d = some (.ok s)) ps sigs →
    List.Forall₂ (fun s b => EB.is b s) sigs (List.zipWith (fun n m => n • P.H m d) (ps.map fun p => skNum p.1) (ps.map Prod.snd)) ∧
    ∀ b ∈ List.zipWith (fun n m => n • P.H m d) (ps.map fun p => skNum p.1) (ps.map Prod.snd), b ∈ P.SB := by
  intro ps
  induction ps with
  | nil => intro pks _ h; cases h; exact ⟨.nil, by simp⟩
  | cons p ps ih =>
    intro pks ho h
    cases h with
    | cons h1 h2 =>
      obtain ⟨e, f⟩ := ih (fun q hq => ho q (List.mem_cons_of_mem _ hq)) h2
      rw [sign_ok hK hB (ho p (List.mem_cons_self ..))] at h1
      injection h1 with h1; injection h1 with h1
      refine ⟨.cons (Or.inl h1.symm) e, ?_⟩
      intro b hb
      simp only [List.map_cons, List.zipWith_cons_cons, List.mem_cons] at hb
      rcases hb with rfl | hb
      · exact hB.ok.nsmulB (hB.ok.H_mem _ _) _
      · exact f b hb

/-- C45. For every non-empty list of signers, the aggregate of their signatures verifies under their public keys; and under these keys and
messages exactly the encodings of that aggregate are accepted. -/
theorem C45_aggregate (hK : BlsCurve K) (hB : BackendOk K Bk P dv ds EA EB) (d : List Byte) {ps : Signers} {pks sigs : List (List Byte)} (hne : ps ≠ [])
    (ho : ∀ p ∈ ps, SkOk K p.1)
    (hpk : List.Forall₂ (fun p pk => secretKeyToPublicKey K Bk p.1 = some (.ok pk)) ps pks)
    (hsg : List.Forall₂ (fun p s => coreSign K Bk p.1 p.2 d = some (.ok s)) ps sigs) :
    ∃ agg b, aggregate Bk sigs = .ok agg ∧ EB.is b agg ∧ coreAggregateVerify Bk pks (ps.map Prod.snd) agg d = some true ∧
      ∀ sig, coreAggregateVerify Bk pks (ps.map Prod.snd) sig d = some true ↔ EB.is b sig := by
  obtain ⟨_, hk⟩ := keys_of hK hB ho hpk
  obtain ⟨hs, hm⟩ := sigs_of hK hB d ho hsg
  obtain ⟨hsum, hmem⟩ := pair_sum hB d (ps.map fun p => skNum p.1) (ps.map Prod.snd)
  have hne' : sigs ≠ [] := by rintro rfl; cases hsg; exact hne rfl
  have hnk : pks ≠ [] := by rintro rfl; cases hpk; exact hne rfl
  have hl : pks.length = (ps.map Prod.snd).length := by rw [List.length_map, hpk.length_eq]
  have agg := C45_aggregate_sum hB hs hm hne'
  have key : ∀ sig, coreAggregateVerify Bk pks (ps.map Prod.snd) sig d = some true ↔
      EB.is (List.zipWith (fun n m => n • P.H m d) (ps.map fun p => skNum p.1) (ps.map Prod.snd)).sum sig := by
    intro sig
    obtain ⟨v, h1, h2⟩ := aggVerify_iff hB pks (ps.map Prod.snd) sig d
    rw [h1]
    constructor
    · intro e
      injection e with e
      obtain ⟨_, _, as, b, i1, i2, i3, i4⟩ := h2.mp e
      rw [encs_inj hB.pk i1 hk, hsum] at i4
      rw [hB.ok.e_inj hmem i3 i4]
      exact i2
    · intro e
      rw [h2.mpr ⟨hnk, hl, _, _, hk, e, hmem, hsum⟩]
  exact ⟨_, _, agg, Or.inl rfl, (key _).mpr (Or.inl rfl), key⟩

/-- C45. Basic scheme: the aggregate verifies when the messages are pairwise distinct. -/
theorem C45_aggregate_basic (hK : BlsCurve K) (hB : BackendOk K Bk P dv ds EA EB) (d : List Byte) {ps : Signers} {pks sigs : List (List Byte)} (hne : ps ≠ [])
    (ho : ∀ p ∈ ps, SkOk K p.1) (hnd : (ps.map Prod.snd).Nodup)
    (hpk : List.Forall₂ (fun p pk => secretKeyToPublicKey K Bk p.1 = some (.ok pk)) ps pks)
    (hsg : List.Forall₂ (fun p s => Basic.sign K Bk d p.1 p.2 = some (.ok s)) ps sigs) :
    ∃ agg, aggregate Bk sigs = .ok agg ∧ Basic.aggregateVerify Bk d pks (ps.map Prod.snd) agg = some true := by
  obtain ⟨agg, b, h1, h2, h3, h4⟩ := C45_aggregate hK hB d hne ho hpk hsg
  refine ⟨agg, h1, ?_⟩
  unfold Basic.aggregateVerify
  rw [if_neg (by rw [repeats_iff]; simpa using hnd)]
  exact h3

/-- C45. Message augmentation: the aggregate always verifies (messages may repeat). -/
theorem C45_aggregate_aug (hK : BlsCurve K) (hB : BackendOk K Bk P dv ds EA EB) (d : List Byte) {ps : Signers} {pks sigs : List (List Byte)} (hne : ps ≠ [])
    (ho : ∀ p ∈ ps, SkOk K p.1)
    (hpk : List.Forall₂ (fun p pk => secretKeyToPublicKey K Bk p.1 = some (.ok pk)) ps pks)
    (hsg : List.Forall₂ (fun (q : (List Byte × List Byte) × List Byte) s => Aug.sign K Bk d q.1.1 q.1.2 q.2 = some (.ok s)) (List.zip ps pks) sigs) :
    ∃ agg, aggregate Bk sigs = .ok agg ∧ Aug.aggregateVerify Bk d pks (ps.map Prod.snd) agg = some true := by
  have hl := hpk.length_eq
  set qs : Signers := List.zipWith (fun p pk => (p.1, pk ++ p.2)) ps pks with hqs
  have hq1 : ∀ q ∈ qs, SkOk K q.1 := by
    intro q hq
    rw [hqs, List.mem_iff_getElem] at hq
    obtain ⟨i, hi, e⟩ := hq
    rw [List.getElem_zipWith] at e
    rw [← e]
    have hi' : i < List.length ps := by rw [List.length_zipWith] at hi; omega
    exact ho ps[i] (List.getElem_mem hi')
  have hq2 : List.Forall₂ (fun p pk => secretKeyToPublicKey K Bk p.1 = some (.ok pk)) qs pks := by
    rw [List.forall₂_iff_get] at hpk ⊢
    refine ⟨by rw [hqs, List.length_zipWith, ← hl, Nat.min_self, hl], fun i h1 h2 => ?_⟩
    have := hpk.2 i (by omega) h2
    simp only [List.get_eq_getElem, hqs, List.getElem_zipWith] at this ⊢
    exact this
  have hq3 : List.Forall₂ (fun p s => coreSign K Bk p.1 p.2 d = some (.ok s)) qs sigs := by
    rw [List.forall₂_iff_get] at hsg ⊢
    refine ⟨by rw [← hsg.1, hqs, List.length_zipWith, List.length_zip], fun i h1 h2 => ?_⟩
    have := hsg.2 i (by rw [hqs, List.length_zipWith] at h1; rw [List.length_zip]; exact h1) h2
    simp only [List.get_eq_getElem, hqs, List.getElem_zipWith, List.getElem_zip, Aug.sign] at this ⊢
    exact this
  have hq4 : qs.map Prod.snd = List.zipWith (· ++ ·) pks (ps.map Prod.snd) := by
    apply List.ext_getElem
    · simp [hqs, Nat.min_comm]
    · intro i h1 h2
      simp [hqs]
  have hq0 : qs ≠ [] := by
    intro e
    have : qs.length = 0 := by rw [e]; rfl
    rw [hqs, List.length_zipWith, ← hl, Nat.min_self, List.length_eq_zero_iff] at this
    exact hne this
  obtain ⟨agg, b, h1, h2, h3, h4⟩ := C45_aggregate hK hB d hq0 hq1 hq2 hq3
  refine ⟨agg, h1, ?_⟩
  unfold Aug.aggregateVerify
  rw [augment_some (by rw [List.length_map]; omega)]
  simp only [bind, Option.bind_some]
  rw [← hq4]
  exact h3

/-- C45. Proof of possession: aggregates verify, and `pop_verify` accepts `pop_prove`'s proof, exactly: under the key of `n` it accepts the
encodings of `n·H(pk)` only. -/
theorem C45_aggregate_pop (hK : BlsCurve K) (hB : BackendOk K Bk P dv ds EA EB) (d : List Byte) {ps : Signers} {pks sigs : List (List Byte)} (hne : ps ≠ [])
    (ho : ∀ p ∈ ps, SkOk K p.1)
    (hpk : List.Forall₂ (fun p pk => secretKeyToPublicKey K Bk p.1 = some (.ok pk)) ps pks)
    (hsg : List.Forall₂ (fun p s => Pop.sign K Bk d p.1 p.2 = some (.ok s)) ps sigs) :
    ∃ agg, aggregate Bk sigs = .ok agg ∧ Pop.aggregateVerify Bk d pks (ps.map Prod.snd) agg = some true := by
  obtain ⟨agg, b, h1, h2, h3, h4⟩ := C45_aggregate hK hB d hne ho hpk hsg
  exact ⟨agg, h1, h3⟩

theorem popVerify_eq (pk proof d : List Byte) : Pop.popVerify Bk d pk proof = coreVerify Bk pk pk proof d := by
  unfold Pop.popVerify coreVerify
  cases Bk.sg.deser proof <;> cases Bk.pk.deser pk <;> rfl

theorem C45_pop (hK : BlsCurve K) (hB : BackendOk K Bk P dv ds EA EB) {sk pk : List Byte} (hs : SkOk K sk)
    (hpk : secretKeyToPublicKey K Bk sk = some (.ok pk)) (d : List Byte) :
    (∃ proof, Pop.popProve K Bk d sk = some (.ok proof) ∧ Pop.popVerify Bk d pk proof = some true) ∧
    ∀ proof, Pop.popVerify Bk d pk proof = some true ↔ EB.is (skNum sk • P.H pk d) proof := by
  have hv : ∀ proof, Pop.popVerify Bk d pk proof = some true ↔ EB.is (skNum sk • P.H pk d) proof := by
    intro proof
    rw [popVerify_eq]
    exact C45_unique hK hB hs hpk pk proof d
  refine ⟨?_, hv⟩
  rw [pk_ok hK hB hs] at hpk
  injection hpk with hpk; injection hpk with hpk
  have hs' := sign_ok hK hB hs pk d
  obtain ⟨k, h1, h2⟩ := (skFrom_ok hK sk).2.2 hs.1 hs.2
  obtain ⟨y, h3, h4⟩ := hB.pk.mul hB.pk.gen hB.ok.g_mem h2 hs.2
  have h5 : Bk.pk.ser y = pk := by rw [hB.pk.ser h4 (hB.ok.nsmulA hB.ok.g_mem _)]; exact hpk
  refine ⟨EB.c (skNum sk • P.H pk d), ?_, (hv _).mpr (Or.inl rfl)⟩
  rw [← hs']
  unfold Pop.popProve coreSign
  rw [h1]
  change ((Bk.pk.mul Bk.pk.gen k).bind fun p => (Bk.hash (Bk.pk.ser p) d).bind fun h => (Bk.sg.mul h k).bind fun p => some (Except.ok (Bk.sg.ser p))) = _
  rw [h3, Option.bind_some, h5]
  rfl

/-- C45. `fast_aggregate_verify` where the first key, read by `frombytes`, is an element `a` of the subgroup, the others are encodings of
subgroup elements and the signature is an encoding of the subgroup element `b`: accepted exactly when `e(a + Σ aᵢ, H(m)) = e(g, b)`. -/
theorem C45_fast (hB : BackendOk K Bk P dv ds EA EB) (d m : List Byte) {k : List Byte} {x : V} {a : A} (hk : Bk.pk.frombytes k = some x) (hx : dv x a) (ha : a ∈ P.SA)
    {ks : List (List Byte)} {as : List A} (hks : List.Forall₂ (fun k a => EA.is a k) ks as) (has : ∀ a ∈ as, a ∈ P.SA)
    {sig : List Byte} {b : B} (hs : EB.is b sig) (hb : b ∈ P.SB) :
    ∃ v, Pop.fastAggregateVerify Bk d (k :: ks) m sig = some v ∧ (v = true ↔ P.e (a + as.sum) (P.H m d) = P.e P.g b) := by
  obtain ⟨g, hg⟩ := hB.sg
  obtain ⟨s, k1, k2⟩ := hg.decode hs
  obtain ⟨hh, h5, h6⟩ := hB.hash m d
  obtain ⟨y, k3, k4⟩ := sumPoints_ok hB.pk hks hx
  have hsum : a + as.sum ∈ P.SA := hB.ok.addA ha (sum_mem hB.ok.zeroA hB.ok.addA has)
  obtain ⟨v, e3, i3⟩ := hB.check (l := [(Bk.pk.neg Bk.pk.gen, s), (y, hh)]) (l' := [(-P.g, b), (a + as.sum, P.H m d)])
    (.cons ⟨⟨hB.pk.neg hB.pk.gen, hB.ok.negA hB.ok.g_mem⟩, k2, hb⟩ (.cons ⟨⟨k4, hsum⟩, h6, hB.ok.H_mem m d⟩ .nil))
  refine ⟨v, ?_, i3.trans ?_⟩
  · unfold Pop.fastAggregateVerify
    rw [k1]
    simp only [bind, h5, hk, k3, Option.bind_some]
    exact e3
  · simp only [List.map_cons, List.map_nil, List.sum_cons, List.sum_nil, add_zero]
    rw [hB.ok.e_negL hB.ok.g_mem hb, neg_add_eq_zero]
    exact eq_comm

/-- C45. The aggregate of all signers' signatures on one common message passes `fast_aggregate_verify`, provided the first key is handed over in
the format that `frombytes` reads. -/
theorem C45_fast_aggregate (hK : BlsCurve K) (hB : BackendOk K Bk P dv ds EA EB) (d m : List Byte) {sk0 k0 : List Byte} {x : V} {sks pks sigs : List (List Byte)}
    (ho : ∀ sk ∈ sk0 :: sks, SkOk K sk) (hk : Bk.pk.frombytes k0 = some x) (hx : dv x (skNum sk0 • P.g))
    (hpk : List.Forall₂ (fun sk pk => secretKeyToPublicKey K Bk sk = some (.ok pk)) sks pks)
    (hsg : List.Forall₂ (fun sk s => coreSign K Bk sk m d = some (.ok s)) (sk0 :: sks) sigs) :
    ∃ agg, aggregate Bk sigs = .ok agg ∧ Pop.fastAggregateVerify Bk d (k0 :: pks) m agg = some true := by
  have hps : ∀ p ∈ (sk0 :: sks).map (fun s => (s, m)), SkOk K p.1 := by
    intro p hp
    obtain ⟨s, hs, e⟩ := List.mem_map.mp hp
    rw [← e]; exact ho s hs
  have hsg' : List.Forall₂ (fun (p : List Byte × List Byte) s => coreSign K Bk p.1 p.2 d = some (.ok s)) ((sk0 :: sks).map (fun s => (s, m))) sigs := by
    rw [List.forall₂_map_left_iff]; exact hsg
  have hpk' : List.Forall₂ (fun (p : List Byte × List Byte) pk => secretKeyToPublicKey K Bk p.1 = some (.ok pk)) (sks.map (fun s => (s, m))) pks := by
    rw [List.forall₂_map_left_iff]; exact hpk
  obtain ⟨hs, hm⟩ := sigs_of hK hB d hps hsg'
  obtain ⟨_, hk2⟩ := keys_of hK hB (fun p hp => hps p (List.mem_cons_of_mem _ hp)) hpk'
  obtain ⟨hsum, hmem⟩ := pair_sum hB d (((sk0 :: sks).map (fun s => (s, m))).map fun p => skNum p.1) (((sk0 :: sks).map (fun s => (s, m))).map Prod.snd)
  have hne : sigs ≠ [] := by rintro rfl; cases hsg
  have agg := C45_aggregate_sum hB hs hm hne
  have hmemA : ∀ a ∈ ((sks.map (fun s => (s, m))).map fun p : List Byte × List Byte => skNum p.1).map (· • P.g), a ∈ P.SA := by
    intro a ha'
    obtain ⟨n, _, e⟩ := List.mem_map.mp ha'
    rw [← e]; exact hB.ok.nsmulA hB.ok.g_mem _
  obtain ⟨v, h1, h2⟩ := C45_fast hB d m hk hx (hB.ok.nsmulA hB.ok.g_mem _) (hk2.imp fun _ _ h => h.1) hmemA (Or.inl rfl) hmem
  refine ⟨_, agg, ?_⟩
  rw [h1, h2.mpr]
  rw [← hsum]
  have aux : ∀ (l : List (List Byte)) (a : A), a ∈ P.SA → P.e (a + (((l.map (fun s => (s, m))).map fun p : List Byte × List Byte => skNum p.1).map (· • P.g)).sum) (P.H m d) =
      P.e a (P.H m d) + (List.zipWith (fun a m => P.e a (P.H m d)) (((l.map (fun s => (s, m))).map fun p : List Byte × List Byte => skNum p.1).map (· • P.g)) ((l.map (fun s => (s, m))).map Prod.snd)).sum := by
    intro l
    induction l with
    | nil => intro a _; simp
    | cons s l ih =>
      intro a ha'
      simp only [List.map_cons, List.sum_cons, List.zipWith_cons_cons]
      rw [← add_assoc, ih _ (hB.ok.addA ha' (hB.ok.nsmulA hB.ok.g_mem _)), hB.ok.e_addL ha' (hB.ok.nsmulA hB.ok.g_mem _) (hB.ok.H_mem m d), add_assoc]
  rw [aux sks _ (hB.ok.nsmulA hB.ok.g_mem _)]
  simp only [List.map_cons, List.zipWith_cons_cons, List.sum_cons]

/-! ### C46 -/

/-- C46. Keys or signatures that decode to no point are rejected. -/
theorem C46_undecodable (hB : BackendOk K Bk P dv ds EA EB) (pk m sig d : List Byte) (h : (∀ a, ¬ EA.is a pk) ∨ ∀ b, ¬ EB.is b sig) :
    coreVerify Bk pk m sig d = some false := by
  obtain ⟨v, h1, h2⟩ := verify_iff hB pk m sig d
  rw [h1]
  cases v with
  | false => rfl
  | true =>
    obtain ⟨a, b, i1, i2, _⟩ := h2.mp rfl
    rcases h with h | h
    · exact absurd i1 (h a)
    · exact absurd i2 (h b)

/-- C46. Points outside the prime-order subgroups are rejected. -/
theorem C46_subgroup (hB : BackendOk K Bk P dv ds EA EB) {pk m sig d : List Byte} {a : A} {b : B} (ha : EA.is a pk) (hb : EB.is b sig) (h : a ∉ P.SA ∨ b ∉ P.SB) :
    coreVerify Bk pk m sig d = some false ∧ Pop.popVerify Bk d pk sig = some false := by
  obtain ⟨g, hg⟩ := hB.sg
  have main : ∀ m, coreVerify Bk pk m sig d = some false := by
    intro m
    obtain ⟨v, h1, h2⟩ := verify_iff hB pk m sig d
    rw [h1]
    cases v with
    | false => rfl
    | true =>
      obtain ⟨a', b', i1, i2, i3, i4, _⟩ := h2.mp rfl
      rw [hB.pk.enc_inj i1 ha] at i3
      rw [hg.enc_inj i2 hb] at i4
      rcases h with h | h
      · exact absurd i3 h
      · exact absurd i4 h
  exact ⟨main m, by rw [popVerify_eq]; exact main pk⟩

/-- C46. `aggregate_verify`: an empty list, lists of different lengths, an undecodable key or signature, a key or signature outside the subgroup. -/
theorem C46_aggregate (hB : BackendOk K Bk P dv ds EA EB) (pks msgs : List (List Byte)) (sig d : List Byte)
    (h : pks = [] ∨ pks.length ≠ msgs.length ∨ (∃ k ∈ pks, ∀ a ∈ P.SA, ¬ EA.is a k) ∨ ∀ b ∈ P.SB, ¬ EB.is b sig) :
    coreAggregateVerify Bk pks msgs sig d = some false := by
  obtain ⟨v, h1, h2⟩ := aggVerify_iff hB pks msgs sig d
  rw [h1]
  cases v with
  | false => rfl
  | true =>
    obtain ⟨i1, i2, as, b, i3, i4, i5, _⟩ := h2.mp rfl
    rcases h with h | h | ⟨k, hk, h⟩ | h
    · exact absurd h i1
    · exact absurd i2 h
    · obtain ⟨i, hi, e⟩ := List.mem_iff_getElem.mp hk
      rw [List.forall₂_iff_get] at i3
      have := i3.2 i hi (by rw [← i3.1]; exact hi)
      simp only [List.get_eq_getElem] at this
      rw [e] at this
      exact absurd this.1 (h _ this.2)
    · exact absurd i4 (h b i5)

/-- C46. The basic scheme rejects lists in which a message occurs twice, whatever the keys and the signature. -/
theorem C46_repeated (d : List Byte) (pks msgs : List (List Byte)) (sig : List Byte) (h : ¬ msgs.Nodup) : Basic.aggregateVerify Bk d pks msgs sig = some false := by
  unfold Basic.aggregateVerify
  rw [if_pos ((repeats_iff msgs).mpr h)]

/-- C46. Message augmentation with at most as many messages as keys is `aggregate_verify` of the prefixed messages; fewer messages are rejected. -/
theorem C46_aug (hB : BackendOk K Bk P dv ds EA EB) (d : List Byte) (pks msgs : List (List Byte)) (sig : List Byte) (h : msgs.length ≤ pks.length) :
    Aug.aggregateVerify Bk d pks msgs sig = coreAggregateVerify Bk pks (List.zipWith (· ++ ·) pks msgs) sig d ∧
    (msgs.length ≠ pks.length → Aug.aggregateVerify Bk d pks msgs sig = some false) := by
  have e : Aug.aggregateVerify Bk d pks msgs sig = coreAggregateVerify Bk pks (List.zipWith (· ++ ·) pks msgs) sig d := by
    unfold Aug.aggregateVerify
    rw [augment_some h]
    rfl
  refine ⟨e, fun hne => ?_⟩
  rw [e]
  exact C46_aggregate hB _ _ _ _ (Or.inr (Or.inl (by rw [List.length_zipWith]; omega)))

/-- C46, what fails: with more messages than keys, message augmentation's `aggregate_verify` indexes out of bounds and panics instead of
returning false. -/
theorem C46_aug_panics (d : List Byte) (pks msgs : List (List Byte)) (sig : List Byte) (h : pks.length < msgs.length) : Aug.aggregateVerify Bk d pks msgs sig = none := by
  unfold Aug.aggregateVerify
  rw [augment_none h]
  rfl

/-- C46. `fast_aggregate_verify` rejects the empty list of keys and undecodable signatures. -/
theorem C46_fast (hB : BackendOk K Bk P dv ds EA EB) (d m : List Byte) (pks : List (List Byte)) (sig : List Byte) (h : pks = [] ∨ ∀ b, ¬ EB.is b sig) :
    Pop.fastAggregateVerify Bk d pks m sig = some false := by
  obtain ⟨g, hg⟩ := hB.sg
  cases pks with
  | nil => rfl
  | cons k ks =>
    rcases h with h | h
    · cases h
    · unfold Pop.fastAggregateVerify
      rcases hg.deser_iff sig with ⟨y, b, k1, k2, k3, k4⟩ | ⟨⟨e, k1⟩, k2⟩
      · exact absurd k3 (h b)
      · rw [k1]

omit hp in
/-- C45/C46, what fails: with public keys on G1 (`fast_aggregate_verify_g2`) a list that starts with a compressed key, i.e. a string of `MODBYTES` bytes as
printed by the library, makes the function panic, for every decodable signature: the first key goes through `ECP::frombytes`, which indexes byte `MODBYTES`. -/
theorem C46_fast_panics {Bk : Backend C (Pt C) S} {dv : Pt C → A → Prop} (hB : BackendOk K Bk P dv ds EA EB) (hf : Bk.pk.frombytes = Ecp.frombytes K)
    (d m : List Byte) {k : List Byte} {ks : List (List Byte)} {sig : List Byte} {b : B} (hs : EB.is b sig) (hk : k.length ≤ K.modbytes) :
    Pop.fastAggregateVerify Bk d (k :: ks) m sig = none := by
  obtain ⟨g, hg⟩ := hB.sg
  obtain ⟨s, k1, k2⟩ := hg.decode hs
  obtain ⟨hh, h5, h6⟩ := hB.hash m d
  have h7 : Bk.pk.frombytes k = none := by rw [hf]; exact (C50_frombytes_short K k).1 (by omega)
  unfold Pop.fastAggregateVerify
  rw [k1]
  simp only [bind, h5, h7, Option.bind_some, Option.bind_none]

/-! ### The hypotheses can be met -/

open Classical in
/-- operations on group elements themselves, with decoding by search -/
noncomputable def refSide {A : Type} [AddCommGroup A] (K : Rom C) (S : Set A) (g : A) (E : Enc A) : Side C A where
  gen := g
  neg := fun a => -a
  add := fun a b => a + b
  mul := fun a k => some ((Spec.limbsVal K.P.b k).toNat • a)
  ser := E.c
  deser := fun bs => if h : ∃ a, E.is a bs then .ok h.choose else .error .invalidPoint
  sub := fun a => some (decide (a ∈ S))
  frombytes := fun bs => if h : ∃ a, E.is a bs then some h.choose else none

omit hp in
theorem refSide_ok {A : Type} [AddCommGroup A] (S : Set A) (g : A) (E : Enc A) (hE : ∀ {a a' bs}, E.is a bs → E.is a' bs → a = a') :
    SideOk K (refSide K S g E) (fun x a => x = a) S g E where
  inj := fun h h' => h.symm.trans h'
  gen := rfl
  neg := fun h => by rw [h]; rfl
  add := fun h h' => by rw [h, h']; rfl
  mul := fun {x a k n} h _ hr _ => ⟨n • a, by subst h; simp [refSide, hr.val], rfl⟩
  ser := fun h _ => by rw [h]; rfl
  decode := fun {a bs} h => by
    have hx : ∃ a, E.is a bs := ⟨a, h⟩
    exact ⟨_, dif_pos hx, hE hx.choose_spec h⟩
  accept := fun {bs x} h => by
    by_cases hx : ∃ a, E.is a bs
    · have : (refSide K S g E).deser bs = .ok hx.choose := dif_pos hx
      rw [this] at h
      injection h with h
      exact ⟨x, rfl, h ▸ hx.choose_spec⟩
    · have : (refSide K S g E).deser bs = .error .invalidPoint := dif_neg hx
      rw [this] at h
      cases h
  sub := fun {x a} h => by subst h; exact ⟨_, rfl, by simp⟩

open Classical in
noncomputable def refBackend (K : Rom C) (P : Setting A B T) (gB : B) (EA : Enc A) (EB : Enc B) : Backend C A B where
  pk := refSide K P.SA P.g EA
  sg := refSide K P.SB gB EB
  hash := fun m d => some (P.H m d)
  check := fun l => some (decide ((l.map fun a => P.e a.1 a.2).sum = 0))

omit hp in
theorem refBackend_ok (hP : P.Ok) (gB : B) (hA : ∀ {a a' bs}, EA.is a bs → EA.is a' bs → a = a') (hB : ∀ {a a' bs}, EB.is a bs → EB.is a' bs → a = a') :
    BackendOk K (refBackend K P gB EA EB) P (fun x a => x = a) (fun x a => x = a) EA EB where
  ok := hP
  pk := refSide_ok _ _ _ hA
  sg := ⟨gB, refSide_ok _ _ _ hB⟩
  hash := fun m d => ⟨_, rfl, rfl⟩
  check := fun {l l'} h => by
    have : l = l' := by
      induction h with
      | nil => rfl
      | cons h1 _ ih => rw [ih, Prod.ext h1.1.1 h1.2.1]
    exact ⟨_, rfl, by rw [this]; simp⟩

/-- a toy setting of the order of BLS12-381: the groups are `ℤ/r × ℤ/2`, the subgroups `ℤ/r × 0`, the pairing is the product -/
def toy (r : Nat) : Setting (ZMod r × ZMod 2) (ZMod r × ZMod 2) (ZMod r) where
  SA := {a | a.2 = 0}
  SB := {a | a.2 = 0}
  g := (1, 0)
  e := fun a b => a.1 * b.1
  H := fun m d => (((Spec.beNat m + 1 + 256 * Spec.beNat d : Nat) : ZMod r), 0)

theorem toy_ok (r : Nat) : (toy r).Ok where
  zeroA := rfl
  addA := fun h h' => by simp only [toy, Set.mem_ofPred_eq, Prod.snd_add] at *; rw [h, h', add_zero]
  negA := fun h => by simp only [toy, Set.mem_ofPred_eq, Prod.snd_neg] at *; rw [h, neg_zero]
  zeroB := rfl
  addB := fun h h' => by simp only [toy, Set.mem_ofPred_eq, Prod.snd_add] at *; rw [h, h', add_zero]
  negB := fun h => by simp only [toy, Set.mem_ofPred_eq, Prod.snd_neg] at *; rw [h, neg_zero]
  g_mem := rfl
  H_mem := fun _ _ => rfl
  e_addL := fun _ _ _ => by simp only [toy, Prod.fst_add]; ring
  e_addR := fun _ _ _ => by simp only [toy, Prod.fst_add]; ring
  nondeg := fun {b} h e => by simp only [toy, Set.mem_ofPred_eq, one_mul] at *; exact Prod.ext e h

/-- one byte for the form, 48 for the first component, one for the second -/
def toyEnc (r : Nat) : Enc (ZMod r × ZMod 2) where
  c := fun a => 0x80#8 :: (Spec.beBytes 48 a.1.val ++ [BitVec.ofNat 8 a.2.val])
  u := fun a => 0x00#8 :: (Spec.beBytes 48 a.1.val ++ [BitVec.ofNat 8 a.2.val])

theorem toyEnc_aux (n r : Nat) [NeZero r] (hr : r < 256 ^ n) {a a' : ZMod r × ZMod 2} (x y : Byte)
    (e : x :: (Spec.beBytes n a.1.val ++ [BitVec.ofNat 8 a.2.val]) = y :: (Spec.beBytes n a'.1.val ++ [BitVec.ofNat 8 a'.2.val])) : a = a' := by
  have e := List.append_inj (List.cons.inj e).2 (by rw [Spec.beBytes_length, Spec.beBytes_length])
  have h1 := congrArg Spec.beNat e.1
  rw [Spec.beNat_beBytes, Spec.beNat_beBytes, Nat.mod_eq_of_lt (lt_trans (ZMod.val_lt _) hr), Nat.mod_eq_of_lt (lt_trans (ZMod.val_lt _) hr)] at h1
  have h2 := congrArg BitVec.toNat (List.cons.inj e.2).1
  rw [BitVec.toNat_ofNat, BitVec.toNat_ofNat, Nat.mod_eq_of_lt (lt_trans (ZMod.val_lt _) (by norm_num)), Nat.mod_eq_of_lt (lt_trans (ZMod.val_lt _) (by norm_num))] at h2
  exact Prod.ext (ZMod.val_injective _ h1) (ZMod.val_injective _ h2)

theorem toyEnc_inj (r : Nat) [NeZero r] (hr : r < 256 ^ 48) {a a' : ZMod r × ZMod 2} {bs : List Byte} (h : (toyEnc r).is a bs) (h' : (toyEnc r).is a' bs) : a = a' := by
  rcases h with h | h <;> rcases h' with h' | h' <;> exact toyEnc_aux 48 r hr _ _ (h.symm.trans h')

/-- the hypotheses of all theorems above hold together for the ROM of BLS12-381 and the toy setting of its order -/
theorem toy_backend : BackendOk bls381_64 (refBackend bls381_64 (toy (ordN bls381_64)) (1, 0) (toyEnc _) (toyEnc _)) (toy (ordN bls381_64))
    (fun x a => x = a) (fun x a => x = a) (toyEnc _) (toyEnc _) := by
  have h : ordN bls381_64 < 256 ^ 48 := by decide +kernel
  have : NeZero (ordN bls381_64) := ⟨by decide +kernel⟩
  exact refBackend_ok (toy_ok _) _ (toyEnc_inj _ h) (toyEnc_inj _ h)

example (m : List Byte) : ∃ pk s, secretKeyToPublicKey bls381_64 (refBackend bls381_64 (toy (ordN bls381_64)) (1, 0) (toyEnc _) (toyEnc _)) (List.replicate 31 0 ++ [7]) = some (.ok pk) ∧
    Basic.sign bls381_64 (refBackend bls381_64 (toy (ordN bls381_64)) (1, 0) (toyEnc _) (toyEnc _)) [1] (List.replicate 31 0 ++ [7]) m = some (.ok s) ∧
    Basic.verify (refBackend bls381_64 (toy (ordN bls381_64)) (1, 0) (toyEnc _) (toyEnc _)) [1] pk m s = some true := by
  obtain ⟨pk, h, ⟨s, h1, h2⟩, _⟩ := C45_verify bls381_bls toy_backend (sk := List.replicate 31 0 ++ [7]) ⟨rfl, by decide +kernel⟩ m [1]
  exact ⟨pk, s, h, h1, h2⟩

/-- an element outside the subgroup is decodable: the hypothesis of `C46_subgroup` is met -/
example : (toyEnc 5).is ((3, 1) : ZMod 5 × ZMod 2) ((toyEnc 5).u (3, 1)) ∧ ((3, 1) : ZMod 5 × ZMod 2) ∉ (toy 5).SA := ⟨Or.inr rfl, by simp [toy]⟩

end Verif.Props
