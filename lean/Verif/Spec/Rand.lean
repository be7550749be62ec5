/-
Independent specification of how random integers are read off a byte stream.
-/
namespace Spec

/-- the first `k` bytes produced by a generator started in state `s`, and the state afterwards -/
def draw {σ : Type} (next : σ → BitVec 8 × σ) : Nat → σ → List (BitVec 8) × σ
  | 0, s => ([], s)
  | k + 1, s => ((next s).1 :: (draw next k (next s).2).1, (draw next k (next s).2).2)

/-- the bits of a byte string, least significant bit of each byte first -/
def bitsLSB (bytes : List (BitVec 8)) : List Bool :=
  bytes.flatMap fun x => (List.range 8).map x.getLsbD

/-- the number written by a list of bits, most significant first -/
def bitsNat (bits : List Bool) : Nat := bits.foldl (fun v t => 2 * v + t.toNat) 0

end Spec
