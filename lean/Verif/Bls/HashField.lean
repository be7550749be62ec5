import Verif.Bls.ModelH2c
import Verif.Bls.Field
/- The elements that `hash_to_field_fp` and `hash_to_field_fp2` produce. -/
namespace Verif.Bls
open Verif.Big Verif.Fp Verif.Rom Verif.H2c Verif.Tower
open Spec (beNat Byte)

variable {C : Nat} {K : Rom C} [hp : Fact K.p.Prime]

/-- the `i`-th number of an expanded message -/
def num64 (bytes : List Byte) (i : Nat) : Nat := beNat ((bytes.drop (64 * i)).take 64)

theorem expand_some (msg : List Byte) (count : Nat) (dst : List Byte) (hc : count ≤ 127) :
    ∃ bytes, Spec.H2c.expand (Spec.Sha2.digest Spec.Sha2.SHA256) 32 64 msg (64 * count) dst = some bytes ∧ bytes.length = 64 * count ∧
      expandMessageXmd .sha256 msg (64 * count) dst = some (.ok bytes) := by
  obtain ⟨bytes, hb, hl⟩ := expand_length msg count dst hc
  refine ⟨bytes, hb, hl, ?_⟩
  have he := expand_ok .sha256 msg (64 * count) dst
  rw [show Alg.sha256.length = 32 from rfl, show Alg.sha256.blockSize = 64 from rfl, show Alg.sha256.H = Spec.Sha2.digest Spec.Sha2.SHA256 from rfl, hb] at he
  exact he

theorem hash1_rep (h : BlsCurve K) (msg : List Byte) (count : Nat) (dst : List Byte) (hc : count ≤ 127) :
    ∃ (bytes : List Byte) (f : Nat → Limbs C), Spec.H2c.expand (Spec.Sha2.digest Spec.Sha2.SHA256) 32 64 msg (64 * count) dst = some bytes ∧
      hashToFieldFp K msg count dst = some (.ok ((List.range count).map fun i => newBig K.P (f i))) ∧
      ∀ i < count, Rep K.P.b K.P.n (f i) ((num64 bytes i % K.p : Nat) : Int) := by
  obtain ⟨bytes, hb, hl, he⟩ := expand_some msg count dst hc
  choose f hf hr using fun bs : {l : List Byte // l.length ≤ 64} => fieldElem_rep h bs.1 bs.2
  refine ⟨bytes, fun i => f ⟨(bytes.drop (64 * i)).take 64, by simp⟩, hb, ?_, fun i _ => hr _⟩
  have ee : count * 1 * h2cL = 64 * count := by simp [h2cL]; ring
  unfold hashToFieldFp
  rw [ee, he]
  simp only [Option.bind_eq_bind, Option.bind_some]
  rw [mapM_some _ (fun i => newBig K.P (f ⟨(bytes.drop (64 * i)).take 64, by simp⟩))]
  · rfl
  · intro i hi
    have : i < count := by simpa using hi
    rw [if_neg (by simp only [h2cL]; omega)]
    simp only [Nat.mul_one]
    exact hf ⟨(bytes.drop (64 * i)).take 64, by simp⟩

theorem hash2_rep (h : BlsCurve K) (msg : List Byte) (count : Nat) (dst : List Byte) (hc : count ≤ 63) :
    ∃ (bytes : List Byte) (f : Nat → Limbs C), Spec.H2c.expand (Spec.Sha2.digest Spec.Sha2.SHA256) 32 64 msg (64 * (2 * count)) dst = some bytes ∧
      hashToFieldFp2 K msg count dst = some (.ok ((List.range count).map fun i => ⟨newBig K.P (f (2 * i)), newBig K.P (f (2 * i + 1))⟩)) ∧
      ∀ i < 2 * count, Rep K.P.b K.P.n (f i) ((num64 bytes i % K.p : Nat) : Int) := by
  obtain ⟨bytes, hb, hl, he⟩ := expand_some msg (2 * count) dst (by omega)
  choose f hf hr using fun bs : {l : List Byte // l.length ≤ 64} => fieldElem_rep h bs.1 bs.2
  refine ⟨bytes, fun i => f ⟨(bytes.drop (64 * i)).take 64, by simp⟩, hb, ?_, fun i _ => hr _⟩
  have ee : count * 2 * h2cL = 64 * (2 * count) := by simp [h2cL]; ring
  unfold hashToFieldFp2
  rw [ee, he]
  simp only [Option.bind_eq_bind, Option.bind_some]
  rw [mapM_some _ (fun i => (⟨newBig K.P (f ⟨(bytes.drop (64 * (2 * i))).take 64, by simp⟩), newBig K.P (f ⟨(bytes.drop (64 * (2 * i + 1))).take 64, by simp⟩)⟩ : Fp2 C))]
  · rfl
  · intro i hi
    have : i < count := by simpa using hi
    have e0 : 0 + i * 2 = 2 * i := by omega
    have e1 : 1 + i * 2 = 2 * i + 1 := by omega
    rw [e0, e1, if_neg (by simp only [h2cL]; omega), if_neg (by simp only [h2cL]; omega)]
    have q1 := hf ⟨(bytes.drop (64 * (2 * i))).take 64, by simp⟩
    have q2 := hf ⟨(bytes.drop (64 * (2 * i + 1))).take 64, by simp⟩
    dsimp only at q1 q2
    simp only [h2cL]
    rw [q1, q2]
    rfl

/-- too many elements -/
theorem hash2_many (msg : List Byte) (count : Nat) (dst : List Byte) (hc : 63 < count) : hashToFieldFp2 K msg count dst = some (.error .hashToFieldError) := by
  have he := expand_ok .sha256 msg (64 * (2 * count)) dst
  rw [show Alg.sha256.length = 32 from rfl, show Alg.sha256.blockSize = 64 from rfl, show Alg.sha256.H = Spec.Sha2.digest Spec.Sha2.SHA256 from rfl] at he
  have : Spec.H2c.expand (Spec.Sha2.digest Spec.Sha2.SHA256) 32 64 msg (64 * (2 * count)) dst = none := by
    unfold Spec.H2c.expand
    dsimp only
    rw [if_pos (by omega)]
  rw [this] at he
  have ee : count * 2 * h2cL = 64 * (2 * count) := by simp [h2cL]; ring
  unfold hashToFieldFp2
  rw [ee, he]; rfl

end Verif.Bls
