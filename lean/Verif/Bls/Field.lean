import Verif.Bls.Keys
/- `hash_to_field_fp`: field elements from the expanded message. -/
namespace Verif.Bls
open Verif.Big Verif.Fp Verif.Rom Verif.Curve Verif.Ecp Verif.Ecdh Verif.H2c Spec WeierstrassCurve

variable {C : Nat} {K : Rom C} [hp : Fact K.p.Prime]

/-- `DBig::frombytes` -/
theorem dFromBytes_rep {b n : Nat} (ok : Ok C b) (hn : 2 ≤ n) (bs : List (BitVec 8)) (hmb : 8 * bs.length ≤ b * n) :
    Rep b n (bs.foldl (fun m x => let m := Big.shl b 8 m; m.set 0 (at' m 0 + (x &&& 0xff#8).setWidth C)) (zero C n)) (beNat bs) := by
  have hb := ok.hb
  induction bs using List.reverseRecOn with
  | nil => simpa using zero_rep (C := C) b n
  | append_singleton bs x ih =>
    rw [List.foldl_append, List.foldl_cons, List.foldl_nil, Spec.beNat_append_singleton]
    rw [List.length_append, List.length_singleton] at hmb
    have IH := ih (by omega)
    have hlt := Spec.beNat_lt bs
    have h1 : ((beNat bs : Nat) : Int) * 2 ^ 8 < 2 ^ (b * n) := by
      have hnat : beNat bs * 256 < 2 ^ (b * n) := by
        calc beNat bs * 256 < 256 ^ bs.length * 256 := by omega
          _ = 2 ^ (8 * (bs.length + 1)) := by rw [← pow_succ, show (256 : Nat) = 2 ^ 8 by norm_num, ← pow_mul]
          _ ≤ 2 ^ (b * n) := Nat.pow_le_pow_right (by norm_num) (by omega)
      exact_mod_cast hnat
    have h2 := shl_rep (k := 8) ok IH (by rw [Nat.div_eq_of_lt (by omega)]; omega) (by positivity) h1
    have e : x &&& 0xff#8 = x := by
      apply BitVec.eq_of_getLsbD_eq
      intro i hi
      interval_cases i <;> simp
    dsimp only
    rw [e]
    have hx := byte_toInt ok x
    have hxlt := x.isLt
    have := add_low_rep (k := 8) (V := beNat bs) ok hn (by omega) h2 (x.setWidth C) (by rw [hx]; positivity)
      (by rw [hx]; exact_mod_cast hxlt)
    rw [hx] at this
    rw [show ((beNat bs : Nat) : Int) * 2 ^ 8 + (x.toNat : Int) = ((256 * beNat bs + x.toNat : Nat) : Int) by push_cast; ring] at this
    exact this

/-- one element: the bytes as a number, modulo `p` -/
theorem fieldElem_rep (h : BlsCurve K) (bs : List Byte) (hl : bs.length ≤ 64) :
    ∃ r, fieldElem K bs = some (newBig K.P r) ∧ Rep K.P.b K.P.n r ((beNat bs % K.p : Nat) : Int) := by
  have hs := h.size
  have hsp := h.dh.spare
  have hc := h.dh.consts
  have hn := hc.hn
  have ht : bs.take (2 * K.modbytes) = bs := List.take_of_length_le (by omega)
  have hr := dFromBytes_rep (C := C) (n := 2 * K.P.n) hc.ok (by omega) bs (by
    rw [show K.P.b * (2 * K.P.n) = 2 * (K.P.b * K.P.n) by ring]; omega)
  have hlt : 2 * ((beNat bs : Nat) : Int) < cap C K.P.b (2 * K.P.n) := by
    refine lt_of_lt_of_le ?_ (cap_ge hc.ok (by omega))
    have h1 := Spec.beNat_lt bs
    have : 2 * beNat bs < 2 ^ (K.P.b * (2 * K.P.n)) := by
      calc 2 * beNat bs < 2 * 256 ^ bs.length := by omega
        _ = 2 ^ (8 * bs.length + 1) := by rw [show (256 : Nat) = 2 ^ 8 by norm_num, ← pow_mul, pow_succ]; ring
        _ ≤ 2 ^ (K.P.b * (2 * K.P.n)) := Nat.pow_le_pow_right (by norm_num) (by
          rw [show K.P.b * (2 * K.P.n) = 2 * (K.P.b * K.P.n) by ring]; omega)
    exact_mod_cast this
  have hcp := cap_pos C K.P.b (2 * K.P.n)
  have hnr := hr.norm hc.ok (by omega) (by omega) (by omega)
  have hpp : (0 : Int) < K.p := by exact_mod_cast hc.ppos
  obtain ⟨r, e1, e2⟩ := dmod_spec hc.ok (by omega) (2 * fuel K) hnr hc.md_rep (by positivity) hlt hpp
    (by
      have h1 := hc.p_sh
      have h2 : (1 : Int) * K.p ≤ 2 ^ K.P.sh * K.p := mul_le_mul_of_nonneg_right (by exact_mod_cast Nat.one_le_two_pow) (by positivity)
      omega)
    (fuel_cap hc.ok (by omega) (by unfold fuel; rw [show K.P.b * (2 * K.P.n) = 2 * (K.P.b * K.P.n) by ring]; omega) hlt hpp)
  have e3 : Rep K.P.b K.P.n r ((beNat bs % K.p : Nat) : Int) := by rwa [Int.natCast_mod]
  refine ⟨r, ?_, e3⟩
  unfold fieldElem dFromBytes
  rw [ht, e1]; rfl

theorem fieldElem_ok (h : BlsCurve K) (bs : List Byte) (hl : bs.length ≤ 64) :
    ∃ u, fieldElem K bs = some u ∧ Normed K.P K.p u ∧ residue K.P K.p u = (beNat bs : ZMod K.p) := by
  obtain ⟨r, e1, e3⟩ := fieldElem_rep h bs hl
  obtain ⟨n1, n2⟩ := h.dh.curve.arith.newBig_ok r _ e3 (Nat.mod_lt _ h.dh.consts.ppos)
  exact ⟨newBig K.P r, e1, n1, by rw [n2, ZMod.natCast_mod]⟩

/-- the expanded message has the length that was asked for -/
theorem expand_length (msg : List Byte) (count : Nat) (dst : List Byte) (hc : count ≤ 127) :
    ∃ bytes, Spec.H2c.expand (Spec.Sha2.digest Spec.Sha2.SHA256) 32 64 msg (64 * count) dst = some bytes ∧ bytes.length = 64 * count := by
  have hl : Alg.sha256.length = 32 := rfl
  have hell : (64 * count + 32 - 1) / 32 = 2 * count := by omega
  unfold Spec.H2c.expand
  dsimp only
  rw [hell, if_neg (by omega)]
  refine ⟨_, rfl, ?_⟩
  rw [List.length_take]
  have := flat_length .sha256 (Spec.H2c.b0 (Spec.Sha2.digest Spec.Sha2.SHA256) 64 msg (64 * count) dst)
    (Spec.H2c.dstPrime (Spec.Sha2.digest Spec.Sha2.SHA256) dst) (H_length _ .sha256) 1 (2 * count)
  rw [hl, show Alg.sha256.H = Spec.Sha2.digest Spec.Sha2.SHA256 from rfl] at this
  rw [this]; omega

/-- `hash_to_field_fp`: for up to 127 elements the numbers read from consecutive 64-byte pieces of the expanded message; the error code
for more. -/
theorem hashToField_ok (h : BlsCurve K) (msg : List Byte) (count : Nat) (dst : List Byte) :
    (127 < count → hashToFieldFp K msg count dst = some (.error .hashToFieldError)) ∧
    (count ≤ 127 → ∃ bytes us, Spec.H2c.expand (Spec.Sha2.digest Spec.Sha2.SHA256) 32 64 msg (64 * count) dst = some bytes ∧
      hashToFieldFp K msg count dst = some (.ok us) ∧ us.length = count ∧
      ∀ i (hi : i < us.length), Normed K.P K.p us[i] ∧ residue K.P K.p us[i] = (beNat ((bytes.drop (64 * i)).take 64) : ZMod K.p)) := by
  have he := expand_ok .sha256 msg (64 * count) dst
  have ee : count * 1 * h2cL = 64 * count := by simp [h2cL]; ring
  have hl : Alg.sha256.length = 32 := rfl
  have hbk : Alg.sha256.blockSize = 64 := rfl
  rw [hl, hbk, show Alg.sha256.H = Spec.Sha2.digest Spec.Sha2.SHA256 from rfl] at he
  have hell : (64 * count + 32 - 1) / 32 = 2 * count := by omega
  refine ⟨fun hc => ?_, fun hc => ?_⟩
  · have : Spec.H2c.expand (Spec.Sha2.digest Spec.Sha2.SHA256) 32 64 msg (64 * count) dst = none := by
      unfold Spec.H2c.expand
      dsimp only
      rw [hell, if_pos (by omega)]
    rw [this] at he
    unfold hashToFieldFp
    rw [ee, he]; rfl
  · obtain ⟨bytes, hb⟩ : ∃ bytes, Spec.H2c.expand (Spec.Sha2.digest Spec.Sha2.SHA256) 32 64 msg (64 * count) dst = some bytes := by
      unfold Spec.H2c.expand
      dsimp only
      rw [hell, if_neg (by omega)]
      exact ⟨_, rfl⟩
    have hbl : bytes.length = 64 * count := by
      have h2 := hb
      unfold Spec.H2c.expand at h2
      dsimp only at h2
      rw [hell, if_neg (by omega)] at h2
      injection h2 with h2
      rw [← h2, List.length_take]
      have := flat_length .sha256 (Spec.H2c.b0 (Spec.Sha2.digest Spec.Sha2.SHA256) 64 msg (64 * count) dst)
        (Spec.H2c.dstPrime (Spec.Sha2.digest Spec.Sha2.SHA256) dst) (H_length _ .sha256) 1 (2 * count)
      rw [hl, show Alg.sha256.H = Spec.Sha2.digest Spec.Sha2.SHA256 from rfl] at this
      rw [this]; omega
    rw [hb] at he
    choose f hf using fun bs : {l : List Byte // l.length ≤ 64} => fieldElem_ok h bs.1 bs.2
    refine ⟨bytes, (List.range count).map fun i => f ⟨(bytes.drop (64 * i)).take 64, by simp⟩, hb, ?_, by simp, ?_⟩
    · unfold hashToFieldFp
      rw [ee, he]
      simp only [Option.bind_eq_bind, Option.bind_some]
      rw [mapM_some _ (fun i => f ⟨(bytes.drop (64 * i)).take 64, by simp⟩)]
      · rfl
      · intro i hi
        have : i < count := by simpa using hi
        rw [if_neg (by simp only [h2cL]; omega)]
        simp only [Nat.mul_one]
        exact (hf ⟨(bytes.drop (64 * i)).take 64, by simp⟩).1
    · intro i hi
      simp only [List.getElem_map, List.getElem_range]
      exact (hf ⟨(bytes.drop (64 * i)).take 64, by simp⟩).2

end Verif.Bls
