import Verif.Sha3.Model
import Mathlib.Tactic.FinCases
import Mathlib.Data.Fintype.Basic
/- Helper lemmas for `Verif/Sha3/Model.lean`. -/
namespace Verif.Sha3
open Spec (bitsLSB)
open Spec.Sha3 (State ofBits keccakF)

/-- the bits of the lanes -/
def bits (s : Lanes) : State := fun x y z => (s x y).getLsbD z.val

theorem rotl_bit (v : BitVec 64) (n : Nat) (h0 : 0 < n) (h : n < 64) (z : Fin 64) :
    (rotl v n).getLsbD z.val = v.getLsbD (z - Fin.ofNat 64 n).val := by
  unfold rotl
  rw [BitVec.getLsbD_or, BitVec.getLsbD_shiftLeft, BitVec.getLsbD_ushiftRight]
  have hz := z.isLt
  have e : (z - Fin.ofNat 64 n).val = if z.val < n then z.val + (64 - n) else z.val - n := by
    rw [Fin.sub_def]
    simp only [Fin.ofNat]
    split <;> omega
  rw [e]
  by_cases hlt : z.val < n
  · simp [hlt, Nat.add_comm]
  · rw [if_neg hlt, BitVec.getLsbD_of_ge v (64 - n + z.val) (by omega)]
    simp [hlt, hz]

def offTable : Fin 5 → Fin 5 → Nat
    | 0, 0 => 0 | 0, 1 => 36 | 0, 2 => 3 | 0, 3 => 41 | 0, 4 => 18
    | 1, 0 => 1 | 1, 1 => 44 | 1, 2 => 10 | 1, 3 => 45 | 1, 4 => 2
    | 2, 0 => 62 | 2, 1 => 6 | 2, 2 => 43 | 2, 3 => 15 | 2, 4 => 61
    | 3, 0 => 28 | 3, 1 => 55 | 3, 2 => 25 | 3, 3 => 21 | 3, 4 => 56
    | 4, 0 => 27 | 4, 1 => 20 | 4, 2 => 39 | 4, 3 => 8 | 4, 4 => 14

theorem offsets : ∀ x y : Fin 5, Fin.ofNat 64 (Spec.Sha3.offset x y) = Fin.ofNat 64 (offTable x y) := by decide

theorem rc_eq : ∀ k : Fin 24, ∀ z : Fin 64, (RC.getD k.val 0).getLsbD z.val = Spec.Sha3.rcBit k.val z := by
  decide +kernel

theorem theta_bits (s : Lanes) : bits (fun i j => s i j ^^^ dArr (cArr s) i) = Spec.Sha3.theta (bits s) := by
  funext x y z
  unfold Spec.Sha3.theta bits
  rw [BitVec.getLsbD_xor]
  congr 1
  have hc : ∀ (i : Fin 5) (w : Nat), (cArr s i).getLsbD w = ((s i 0).getLsbD w ^^ (s i 1).getLsbD w ^^ (s i 2).getLsbD w ^^ (s i 3).getLsbD w ^^ (s i 4).getLsbD w) := by
    intro i w; simp only [cArr, BitVec.getLsbD_xor]
  have e : ∀ a b : BitVec 64, (a ^^^ rotl b 1).getLsbD z.val = (a.getLsbD z.val ^^ b.getLsbD (z - 1).val) := by
    intro a b; rw [BitVec.getLsbD_xor, rotl_bit _ 1 (by decide) (by decide)]; rfl
  fin_cases x <;> (unfold Spec.Sha3.colP; refine (e _ _).trans ?_; rw [hc, hc]; rfl)

theorem rho_pi_bits (s : Lanes) : bits (bArr s) = Spec.Sha3.pi (Spec.Sha3.rho (bits s)) := by
  funext x y z
  unfold Spec.Sha3.pi Spec.Sha3.rho
  rw [offsets]
  unfold bits
  fin_cases x <;> fin_cases y
  · show (s 0 0).getLsbD z.val = (s 0 0).getLsbD (z - 0).val
    have : z - 0 = z := by apply Fin.ext; rw [Fin.sub_def]; simp
    rw [this]
  all_goals exact rotl_bit _ _ (by decide) (by decide) z

theorem chi_bits (b : Lanes) : bits (fun i j => b i j ^^^ (~~~ (b (i + 1) j) &&& b (i + 2) j)) = Spec.Sha3.chi (bits b) := by
  funext x y z
  have hz := z.isLt
  simp [bits, Spec.Sha3.chi, hz]

theorem round_bits (s : Lanes) (k : Nat) (hk : k < 24) : bits (round s k) = Spec.Sha3.rnd (bits s) k := by
  unfold Spec.Sha3.rnd
  rw [← theta_bits, ← rho_pi_bits, ← chi_bits]
  funext x y z
  unfold round Spec.Sha3.iota
  dsimp only
  unfold bits
  dsimp only
  have := rc_eq ⟨k, hk⟩ z
  dsimp only at this
  by_cases h : x = 0 ∧ y = 0
  · rw [if_pos h, if_pos h, BitVec.getLsbD_xor, this]
  · rw [if_neg h, if_neg h]

theorem transform_bits (s : Lanes) : bits (transform s) = keccakF (bits s) := by
  unfold transform keccakF
  have : ∀ (l : List Nat), (∀ k ∈ l, k < 24) → ∀ s, bits (l.foldl round s) = l.foldl Spec.Sha3.rnd (bits s) := by
    intro l
    induction l with
    | nil => intro _ s; rfl
    | cons a t ih => intro h s; rw [List.foldl_cons, List.foldl_cons, ih (fun k hk => h k (List.mem_cons_of_mem _ hk)), round_bits s a (h a (List.mem_cons_self ..))]
  exact this _ (fun k hk => by simpa using hk) s

end Verif.Sha3
