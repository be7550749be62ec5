import Verif.Sha2.Model
import Mathlib.Logic.Function.Iterate
/-
Model of `src/rand.rs`.
-/
namespace Verif.Rand
open Verif.Sha2 (P256)

abbrev Byte := BitVec 8

/-- the struct (rand.rs:28-34) -/
structure RAND where
  ira : List (BitVec 32)
  rndptr : Nat
  borrow : BitVec 32
  poolPtr : Nat
  pool : List Byte

/-- `new` (rand.rs:37-45); `clean` (rand.rs:47-57) returns to the same state -/
def new : RAND := { ira := List.replicate 21 0, rndptr := 0, borrow := 0, poolPtr := 0, pool := List.replicate 32 0 }
def clean (_h : RAND) : RAND :=
  { ira := List.replicate 21 0, rndptr := 0, borrow := 0, poolPtr := 0, pool := List.replicate 32 0 }

/-- loop body of `sbrand` (rand.rs:59-84) on `(ira, borrow, k)` -/
def sbStep (st : List (BitVec 32) × BitVec 32 × Nat) (i : Nat) : List (BitVec 32) × BitVec 32 × Nat :=
  let k := if st.2.2 = 21 then 0 else st.2.2
  let t := st.1.getD k 0
  let pdiff := t - st.1.getD i 0 - st.2.1
  let borrow := if pdiff < t then 0 else st.2.1
  let borrow := if pdiff > t then 1 else borrow
  (st.1.set i pdiff, borrow, k + 1)

/-- `sbrand` (rand.rs:59-84) -/
def sbrand (h : RAND) : BitVec 32 × RAND :=
  let p := h.rndptr + 1
  if p < 21 then (h.ira.getD p 0, { h with rndptr := p })
  else
    let r := (List.range 21).foldl sbStep (h.ira, h.borrow, 21 - 6)
    (r.1.getD 0 0, { h with ira := r.1, borrow := r.2.1, rndptr := 0 })

/-- loop body of `sirand` (rand.rs:86-103) on `(ira, m, sd)` -/
def siStep (st : List (BitVec 32) × BitVec 32 × BitVec 32) (i : Nat) : List (BitVec 32) × BitVec 32 × BitVec 32 :=
  let inn := (8 * i) % 21
  let ira := st.1.set inn (st.1.getD inn 0 ^^^ st.2.1)
  let t := st.2.1
  (ira, st.2.2 - st.2.1, t)

/-- `sirand` (rand.rs:86-103) -/
def sirand (h : RAND) (seed : BitVec 32) : RAND :=
  let ira := h.ira.set 0 (h.ira.getD 0 0 ^^^ seed)
  let r := (List.range' 1 20).foldl siStep (ira, 1, seed)
  let h := { h with ira := r.1, borrow := 0, rndptr := 0 }
  (fun h => (sbrand h).2)^[10000] h

/-- `n` calls of `sbrand` -/
def sbMany : Nat → RAND → List (BitVec 32) × RAND
  | 0, h => ([], h)
  | n + 1, h => let r := sbrand h; let t := sbMany n r.2; (r.1 :: t.1, t.2)

/-- `fill_pool` (rand.rs:105-115) -/
def fillPool (h : RAND) : RAND :=
  let r := sbMany 128 h
  let sh := r.1.foldl (fun sh v => Sha2.process P256 sh ((v &&& 0xff).setWidth 8)) (Sha2.new P256)
  { r.2 with pool := (Sha2.hash P256 sh).1, poolPtr := 0 }

/-- `pack` (rand.rs:117-123) -/
def pack (b0 b1 b2 b3 : Byte) : BitVec 32 :=
  ((b3.setWidth 32 &&& 0xff) <<< 24) ||| ((b2.setWidth 32 &&& 0xff) <<< 16) ||| ((b1.setWidth 32 &&& 0xff) <<< 8) ||| (b0.setWidth 32 &&& 0xff)

/-- `seed` (rand.rs:126-152) with `raw` the first `rawlen` bytes of the argument -/
def seed (h : RAND) (raw : List Byte) : RAND :=
  let h := { h with poolPtr := 0, ira := List.replicate 21 0 }
  let h :=
    if raw.length > 0 then
      let d := (Sha2.hash P256 (raw.foldl (Sha2.process P256) (Sha2.new P256))).1
      (List.range 8).foldl (fun h i => sirand h (pack (d.getD (4 * i) 0) (d.getD (4 * i + 1) 0) (d.getD (4 * i + 2) 0) (d.getD (4 * i + 3) 0))) h
    else h
  fillPool h

/-- `getbyte` (rand.rs:155-162) -/
def getbyte (h : RAND) : Byte × RAND :=
  let r := h.pool.getD h.poolPtr 0
  let h := { h with poolPtr := h.poolPtr + 1 }
  if h.poolPtr ≥ 32 then (r, fillPool h) else (r, h)

end Verif.Rand
