import Verif.Spec.Rand
import Mathlib.Logic.Function.Iterate
/-
Independent specification: FIPS 202 (SHA-3 and SHAKE) on bit strings.
-/
namespace Spec.Sha3

/-- state array `A[x, y, z]` (FIPS 202 3.1.1) -/
abbrev State := Fin 5 → Fin 5 → Fin 64 → Bool

/-- column parity -/
def colP (A : State) (x : Fin 5) (z : Fin 64) : Bool := A x 0 z ^^ A x 1 z ^^ A x 2 z ^^ A x 3 z ^^ A x 4 z
/-- θ (3.2.1) -/
def theta (A : State) : State := fun x y z => A x y z ^^ (colP A (x - 1) z ^^ colP A (x + 1) (z - 1))

/-- position reached after `t` steps of the walk in ρ, step 2-3 (3.2.2) -/
def walk : Nat → Fin 5 × Fin 5
  | 0 => (1, 0)
  | t + 1 => let p := walk t; (p.2, 2 * p.1 + 3 * p.2)
/-- rotation offset of lane `(x, y)`: 0 for `(0,0)`, `(t+1)(t+2)/2` for the lane visited at step `t` -/
def offset (x y : Fin 5) : Nat :=
  match (List.range 24).find? (fun t => walk t == (x, y)) with
  | some t => (t + 1) * (t + 2) / 2
  | none => 0
/-- ρ (3.2.2) -/
def rho (A : State) : State := fun x y z => A x y (z - Fin.ofNat 64 (offset x y))
/-- π (3.2.3) -/
def pi (A : State) : State := fun x y z => A (x + 3 * y) x z
/-- χ (3.2.4) -/
def chi (A : State) : State := fun x y z => A x y z ^^ (!(A (x + 1) y z) && A (x + 2) y z)

/-- one step of the LFSR of `rc(t)` (Algorithm 5) on `R[0..7]` -/
def lfsr (R : List Bool) : List Bool :=
  let R := false :: R
  let b := fun i => R.getD i false
  [b 0 ^^ b 8, b 1, b 2, b 3, b 4 ^^ b 8, b 5 ^^ b 8, b 6 ^^ b 8, b 7]
/-- `rc(t)` -/
def rc (t : Nat) : Bool := (lfsr^[t % 255] [true, false, false, false, false, false, false, false]).getD 0 false
/-- bit `z` of the round constant: `RC[2^j - 1] = rc(j + 7 ir)` for `j = 0..6` -/
def rcBit (ir : Nat) (z : Fin 64) : Bool := (List.range 7).any fun j => z.val == 2 ^ j - 1 && rc (j + 7 * ir)
/-- ι (3.2.5) -/
def iota (A : State) (ir : Nat) : State := fun x y z => if x = 0 ∧ y = 0 then A x y z ^^ rcBit ir z else A x y z

/-- one round and Keccak-p[1600, 24] (3.3) -/
def rnd (A : State) (ir : Nat) : State := iota (chi (pi (rho (theta A)))) ir
def keccakF (A : State) : State := (List.range 24).foldl rnd A

/-- bit string of a state and back (3.1.2, 3.1.3): `A[x,y,z] = S[64(5y+x)+z]` -/
def ofBits (S : List Bool) : State := fun x y z => S.getD (64 * (5 * y.val + x.val) + z.val) false
def toBits (A : State) : List Bool :=
  (List.finRange 5).flatMap fun y => (List.finRange 5).flatMap fun x => (List.finRange 64).map fun z => A x y z

/-- `pad10*1(x, m)` (5.1) -/
def pad (x m : Nat) : List Bool := [true] ++ List.replicate ((x - (m + 2) % x) % x) false ++ [true]

/-- absorbing phase of the sponge with rate `r` bits -/
def absorb (r : Nat) (P : List Bool) : State :=
  (List.range (P.length / r)).foldl
    (fun A i => keccakF fun x y z => A x y z ^^ ofBits ((P.drop (i * r)).take r) x y z) (fun _ _ _ => false)

/-- squeezing phase: the first `d` bits of the successive `r`-bit prefixes -/
def squeeze (r : Nat) (A : State) (d : Nat) : List Bool :=
  ((List.range ((d + r - 1) / r)).flatMap fun i => (toBits (keccakF^[i] A)).take r).take d

/-- KECCAK[c](N, d) (5.2) -/
def keccak (c : Nat) (N : List Bool) (d : Nat) : List Bool :=
  let r := 1600 - c
  squeeze r (absorb r (N ++ pad r N.length)) d

/-- SHA3-d (6.1) -/
def sha3 (d : Nat) (M : List Bool) : List Bool := keccak (2 * d) (M ++ [false, true]) d
/-- SHAKE128 and SHAKE256 (6.2): `k` is 128 or 256 -/
def shake (k : Nat) (M : List Bool) (d : Nat) : List Bool := keccak (2 * k) (M ++ [true, true, true, true]) d

end Spec.Sha3
