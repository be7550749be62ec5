import Verif.Spec.Sha2
import Mathlib.Logic.Function.Iterate
/-
Independent specification of the generator of `rand.rs`: the Marsaglia-Zaman subtract-with-borrow sequence
`x_n = x_{n-6} - x_{n-21} - c_{n-1}` modulo 2^32, seeded as in the MIRACL libraries, whose low bytes are hashed in
groups of 128 with SHA-256 to give 32 output bytes each.
-/
namespace Spec.Swb

/-- the last 21 values (oldest first) and the borrow -/
abbrev W := List (BitVec 32) × Bool

/-- one step of the recurrence, over the integers -/
def step (s : W) : W :=
  let d : Int := ((s.1.getD 15 0).toNat : Int) - (s.1.getD 0 0).toNat - (if s.2 then 1 else 0)
  (s.1.drop 1 ++ [BitVec.ofInt 32 d], decide (d < 0))

/-- the value produced by step `n` (counted from 0) -/
def value (s : W) (n : Nat) : BitVec 32 := (step^[n + 1] s).1.getD 20 0

/-- the pool produced from the `k`-th group of 128 values of a sequence -/
def pool (x : Nat → BitVec 32) (k : Nat) : List (BitVec 8) :=
  Spec.Sha2.digest Spec.Sha2.SHA256 ((List.range 128).map fun i => (x (128 * k + i)).setWidth 8)

/-- values xored into the window by a 32-bit seed: `1, s-1, 1-(s-1), …`, each the previous-but-one minus the previous -/
def seedSeq (s : BitVec 32) : Nat → BitVec 32 × BitVec 32
  | 0 => (1, s)
  | n + 1 => let p := seedSeq s n; (p.2 - p.1, p.1)

/-- window xored with the seed material: entry 0 with the seed, entry `8 i mod 21` with the `i`-th value (`1 ≤ i ≤ 20`) -/
def stir (w : List (BitVec 32)) (s : BitVec 32) : List (BitVec 32) :=
  (List.range 21).map fun j =>
    if j = 0 then w.getD 0 0 ^^^ s
    else match (List.range 20).find? (fun i => 8 * (i + 1) % 21 == j) with
      | some i => w.getD j 0 ^^^ (seedSeq s i).1
      | none => w.getD j 0

/-- the four bytes of word `i` of a digest, least significant first -/
def word (d : List (BitVec 8)) (i : Nat) : BitVec 32 :=
  d.getD (4 * i + 3) 0 ++ d.getD (4 * i + 2) 0 ++ d.getD (4 * i + 1) 0 ++ d.getD (4 * i) 0

/-- generator state after seeding: each of the eight words of SHA-256 of the raw bytes is stirred in, and the
generator is run until it has discarded 10000 values, 9996 of them new -/
def seeded (raw : List (BitVec 8)) : W :=
  (List.range 8).foldl (fun s i => step^[9996] (stir s.1 (word (Spec.Sha2.digest Spec.Sha2.SHA256 raw) i), false)) (List.replicate 21 0, false)

/-- values delivered after seeding: the remaining 16 of the current window, then new ones -/
def stream (s : W) (j : Nat) : BitVec 32 := if j < 16 then s.1.getD (5 + j) 0 else value s (j - 16)

/-- the byte stream of a generator seeded with `raw` -/
def byte (raw : List (BitVec 8)) (n : Nat) : BitVec 8 := (pool (stream (seeded raw)) (n / 32)).getD (n % 32) 0

end Spec.Swb
