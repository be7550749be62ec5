import Verif.Rand.Seed
/-
C23: the random number generator.
-/
namespace Verif.Props
open Verif.Rand
open Spec.Swb (stream seeded byte pool)
attribute [local irreducible] Spec.Swb.step

/-- C23. Whatever a generator did before, after seeding with a non-empty byte string the `i`-th call of `getbyte`
returns byte `i mod 32` of the SHA-256 digest of the low bytes of values `128 (i/32), …, 128 (i/32) + 127` of the
subtract-with-borrow sequence started from the seed: a function of the seed and the call number only, for every number
of calls. -/
theorem C23_stream (h : RAND) (raw : List Rand.Byte) (hr : 0 < raw.length) (n : Nat) :
    (Spec.draw getbyte n (seed h raw)).1 = (List.range n).map (byte raw) := by
  obtain ⟨h1, A, e⟩ := seed_at h raw hr
  obtain ⟨⟨s', p', A', o⟩, f1, f2⟩ := fillPool_at A
  have hout : ∀ j, out (seeded raw) 4 j = stream (seeded raw) j := by
    intro j
    unfold out stream
    by_cases hj : j < 16
    · rw [if_pos hj, if_pos (by omega)]
    · rw [if_neg hj, if_neg (by omega)]
      congr 1; omega
  rw [e, getbyte_stream n (stream (seeded raw)) A' (by rw [f1]; congr 1; funext j; exact hout j) (by rw [f2]; omega) (fun j => by rw [o, hout]), f2]
  apply List.map_congr_left
  intro i _
  rw [Nat.zero_add]
  rfl

/-- C23. Two generators with any histories seeded with the same bytes give the same stream. -/
theorem C23_deterministic (h h' : RAND) (raw : List Rand.Byte) (hr : 0 < raw.length) (n : Nat) :
    (Spec.draw getbyte n (seed h raw)).1 = (Spec.draw getbyte n (seed h' raw)).1 := by
  rw [C23_stream h raw hr, C23_stream h' raw hr]

/-- C23. `clean` returns a generator to its initial state. -/
theorem C23_clean (h : RAND) : clean h = new := rfl

theorem C23_pool_length (raw : List Rand.Byte) (k : Nat) : (pool (stream (seeded raw)) k).length = 32 :=
  poolOf_length fun j => stream (seeded raw) (128 * k + j)

example : (Spec.draw getbyte 100 (seed new [1, 2, 3])).1.length = 100 := by
  rw [C23_stream new [1, 2, 3] (by decide)]; simp

/-- C23. Seeding with no bytes keeps the old borrow, so it does not forget: two generators that differ only in the
borrow have different pools afterwards. -/
theorem C23_empty_seed_keeps_state : (seed new []).pool ≠ (seed { new with borrow := 1 } []).pool := by
  have A0 : At (List.replicate 21 0, false) 0 { new with poolPtr := 0, ira := List.replicate 21 0 } := ⟨rfl, rfl, rfl, rfl, by decide⟩
  have A1 : At (List.replicate 21 0, true) 0 { { new with borrow := 1 } with poolPtr := 0, ira := List.replicate 21 0 } := ⟨rfl, rfl, rfl, rfl, by decide⟩
  have e0 : seed new [] = fillPool { new with poolPtr := 0, ira := List.replicate 21 0 } := rfl
  have e1 : seed { new with borrow := 1 } [] = fillPool { { new with borrow := 1 } with poolPtr := 0, ira := List.replicate 21 0 } := rfl
  rw [e0, e1, (fillPool_at A0).2.1, (fillPool_at A1).2.1]
  unfold poolOf
  decide +kernel

end Verif.Props
