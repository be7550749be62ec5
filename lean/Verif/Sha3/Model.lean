import Verif.Spec.Sha3
/-
Model of `src/sha3.rs`.  The array `s: [[u64; 5]; 5]` is a function of its two indices.
-/
namespace Verif.Sha3

abbrev Byte := BitVec 8
abbrev Lanes := Fin 5 → Fin 5 → BitVec 64

/-- round constants (sha3.rs:29-54) -/
def RC : List (BitVec 64) := [
  0x0000000000000001, 0x0000000000008082, 0x800000000000808A, 0x8000000080008000, 0x000000000000808B, 0x0000000080000001,
  0x8000000080008081, 0x8000000000008009, 0x000000000000008A, 0x0000000000000088, 0x0000000080008009, 0x000000008000000A,
  0x000000008000808B, 0x800000000000008B, 0x8000000000008089, 0x8000000000008003, 0x8000000000008002, 0x8000000000000080,
  0x000000000000800A, 0x800000008000000A, 0x8000000080008081, 0x8000000000008080, 0x0000000080000001, 0x8000000080008008]

/-- `rotl` (sha3.rs:64-66) -/
def rotl (x : BitVec 64) (n : Nat) : BitVec 64 := x <<< n ||| x >>> (64 - n)

/-- the array `c` (sha3.rs:75-79) -/
def cArr (s : Lanes) (i : Fin 5) : BitVec 64 := s i 0 ^^^ s i 1 ^^^ s i 2 ^^^ s i 3 ^^^ s i 4
/-- the array `d` (sha3.rs:81-85) -/
def dArr (c : Fin 5 → BitVec 64) : Fin 5 → BitVec 64
  | 0 => c 4 ^^^ rotl (c 1) 1
  | 1 => c 0 ^^^ rotl (c 2) 1
  | 2 => c 1 ^^^ rotl (c 3) 1
  | 3 => c 2 ^^^ rotl (c 4) 1
  | 4 => c 3 ^^^ rotl (c 0) 1
/-- the array `b` (sha3.rs:93-121) -/
def bArr (s : Lanes) : Lanes
  | 0, 0 => s 0 0
  | 1, 3 => rotl (s 0 1) 36
  | 2, 1 => rotl (s 0 2) 3
  | 3, 4 => rotl (s 0 3) 41
  | 4, 2 => rotl (s 0 4) 18
  | 0, 2 => rotl (s 1 0) 1
  | 1, 0 => rotl (s 1 1) 44
  | 2, 3 => rotl (s 1 2) 10
  | 3, 1 => rotl (s 1 3) 45
  | 4, 4 => rotl (s 1 4) 2
  | 0, 4 => rotl (s 2 0) 62
  | 1, 2 => rotl (s 2 1) 6
  | 2, 0 => rotl (s 2 2) 43
  | 3, 3 => rotl (s 2 3) 15
  | 4, 1 => rotl (s 2 4) 61
  | 0, 1 => rotl (s 3 0) 28
  | 1, 4 => rotl (s 3 1) 55
  | 2, 2 => rotl (s 3 2) 25
  | 3, 0 => rotl (s 3 3) 21
  | 4, 3 => rotl (s 3 4) 56
  | 0, 3 => rotl (s 4 0) 27
  | 1, 1 => rotl (s 4 1) 20
  | 2, 4 => rotl (s 4 2) 39
  | 3, 2 => rotl (s 4 3) 8
  | 4, 0 => rotl (s 4 4) 14

/-- one round of `transform` (sha3.rs:68-131) -/
def round (s : Lanes) (k : Nat) : Lanes :=
  let d := dArr (cArr s)
  let s1 : Lanes := fun i j => s i j ^^^ d i
  let b := bArr s1
  let s2 : Lanes := fun i j => b i j ^^^ (~~~ (b (i + 1) j) &&& b (i + 2) j)
  fun i j => if i = 0 ∧ j = 0 then s2 i j ^^^ RC.getD k 0 else s2 i j

/-- `transform` (sha3.rs:68-131) -/
def transform (s : Lanes) : Lanes := (List.range 24).foldl round s

/-- the struct (sha3.rs:56-61) -/
structure SHA3 where
  length : BitVec 64
  rate : Nat
  len : Nat
  s : Lanes

/-- `new`/`init` (sha3.rs:134-144); `200 - 2 * olen` panics or wraps when `olen > 100`, here it is 0 -/
def new (olen : Nat) : SHA3 := { length := 0, rate := 200 - 2 * olen, len := olen, s := fun _ _ => 0 }

/-- `process` (sha3.rs:158-170); `length` wraps at 2^64 -/
def process (h : SHA3) (byt : Byte) : SHA3 :=
  let cnt := h.length.toNat % h.rate
  let b := cnt % 8
  let ind := cnt / 8
  let i := ind % 5
  let j := ind / 5
  let s : Lanes := fun x y => if x.val = i ∧ y.val = j then h.s x y ^^^ (byt.setWidth 64 <<< (8 * b)) else h.s x y
  let h := { h with s := s, length := h.length + 1 }
  if cnt + 1 = h.rate then { h with s := transform h.s } else h

/-- one byte of the squeezing loop (sha3.rs:181-191): state is the bytes written so far and the flag `done` -/
def emit (rate olen : Nat) (st : List Byte × Bool) (byt : Byte) : List Byte × Bool :=
  if st.2 then st else
  let out := st.1 ++ [byt]
  (out, decide (out.length ≥ olen) || decide (out.length % rate = 0))

/-- the eight bytes of a lane as the inner loop produces them by shifting (sha3.rs:180-188) -/
def laneBytes : Nat → BitVec 64 → List Byte
  | 0, _ => []
  | n + 1, el => (el &&& 0xff).setWidth 8 :: laneBytes n (el >>> 8)

/-- the two outer loops over lanes (sha3.rs:178-199) -/
def squeezeBlock (s : Lanes) (rate olen : Nat) (out : List Byte) : List Byte :=
  ((List.finRange 5).foldl (fun st j => (List.finRange 5).foldl (fun st i => (laneBytes 8 (s i j)).foldl (emit rate olen) st) st) (out, false)).1

/-- the outermost loop of `squeeze` (sha3.rs:172-203): the bytes written to the buffer, and the final lanes.
Every pass writes at least one byte, so `olen + 1` passes are more than enough. -/
def squeezeLoop (rate olen : Nat) : Nat → Lanes → List Byte → List Byte × Lanes
  | 0, s, out => (out, s)
  | fuel + 1, s, out =>
    let out := squeezeBlock s rate olen out
    if out.length ≥ olen then (out, s) else squeezeLoop rate olen fuel (transform s) out

/-- `squeeze` (sha3.rs:172-203): bytes written from the start of the buffer -/
def squeeze (h : SHA3) (olen : Nat) : List Byte × SHA3 :=
  let r := squeezeLoop h.rate olen (olen + 1) h.s []
  (r.1, { h with s := r.2 })

/-- the padding loop (sha3.rs:217-219, 233-235); it runs fewer than `rate` times -/
def padLoop : Nat → SHA3 → SHA3
  | 0, h => h
  | fuel + 1, h => if h.length.toNat % h.rate ≠ h.rate - 1 then padLoop fuel (process h 0) else h

/-- common part of `hash` and `shake` (sha3.rs:212-221, 228-237) -/
def finish (h : SHA3) (one both : Byte) : SHA3 :=
  let q := h.rate - h.length.toNat % h.rate
  if q = 1 then process h both
  else process (padLoop h.rate (process h one)) 0x80

/-- `hash` (sha3.rs:206-220) -/
def hash (h : SHA3) : List Byte × SHA3 := let h := finish h 0x06 0x86; squeeze h h.len
/-- `shake` (sha3.rs:222-234) -/
def shake (h : SHA3) (olen : Nat) : List Byte × SHA3 := squeeze (finish h 0x1f 0x9f) olen

end Verif.Sha3
