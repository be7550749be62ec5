import Verif.Sha2.Model
/-
Model of `expand_message_xmd` and its helpers (`src/hash_to_curve.rs`).
`usize` is `Nat` (vectors longer than the address space do not exist); indexing or slicing out of
range is the outer `none`.
-/
namespace Verif.H2c
open Spec (Byte)
open Sha2 (P256 P384 P512)

/-- `enum HashAlgorithm` (hash_to_curve.rs:17-22) -/
inductive Alg | sha256 | sha384 | sha512
deriving DecidableEq

/-- `fn length` (hash_to_curve.rs:25-31) -/
def Alg.length : Alg → Nat
  | .sha256 => P256.hashBytes
  | .sha384 => P384.hashBytes
  | .sha512 => P512.hashBytes

/-- `fn block_size` (hash_to_curve.rs:33-39) -/
def Alg.blockSize : Alg → Nat
  | .sha256 => Sha2.blockBytes 32
  | .sha384 => Sha2.blockBytes 64
  | .sha512 => Sha2.blockBytes 64

/-- `pub fn hash` (hash_to_curve.rs:43-64) -/
def hash (msg : List Byte) : Alg → List Byte
  | .sha256 => Sha2.digest P256 msg
  | .sha384 => Sha2.digest P384 msg
  | .sha512 => Sha2.digest P512 msg

/-- `enum AmclError` (errors.rs), the variants the modelled functions return -/
inductive Err
  | aggregateEmptyPoints | hashToFieldError | invalidSecretKeySize | invalidSecretKeyRange
  | invalidPoint | invalidG1Size | invalidG2Size | invalidYFlag
deriving DecidableEq

/-- `OVERSIZED_DST` (hash_to_curve.rs:15): the bytes of `H2C-OVERSIZE-DST-` -/
def oversizedDst : List Byte :=
  [0x48, 0x32, 0x43, 0x2d, 0x4f, 0x56, 0x45, 0x52, 0x53, 0x49, 0x5a, 0x45, 0x2d, 0x44, 0x53, 0x54, 0x2d]

/-- `dst_prime` (hash_to_curve.rs:125-137) -/
def dstPrime (alg : Alg) (dst : List Byte) : List Byte :=
  if dst.length > 255 then
    let tmp := hash (oversizedDst ++ dst) alg
    tmp ++ [BitVec.ofNat 8 alg.length]
  else dst ++ [BitVec.ofNat 8 dst.length]

/-- the loop body (hash_to_curve.rs:162-177); the state is `(b, pseudo_random_bytes)` -/
def expandStep (alg : Alg) (dst' : List Byte) (st : List (List Byte) × List Byte) (i : Nat) :
    Option (List (List Byte) × List Byte) := do
  let z ← st.1[0]?
  let prev ← st.1[i - 1]?
  let tmp ← (List.range z.length).mapM fun j => do
    let x ← z[j]?
    let y ← prev[j]?
    pure (x ^^^ y)
  let h := hash (tmp ++ [BitVec.ofNat 8 i] ++ dst') alg
  let b := st.1 ++ [h]
  let bi ← b[i]?
  pure (b, st.2 ++ bi)

/-- `fn expand_message_xmd` (hash_to_curve.rs:114-181); the outer `none` is a panic -/
def expandMessageXmd (alg : Alg) (msg : List Byte) (len : Nat) (dst : List Byte) :
    Option (Except Err (List Byte)) :=
  let ell := (len + alg.length - 1) / alg.length
  if ell > 255 then some (.error .hashToFieldError)
  else
    let dst' := dstPrime alg dst
    let l := BitVec.ofNat 16 len
    let libStr : List Byte := [(l >>> 8).setWidth 8, l.setWidth 8]
    let z := hash (List.replicate alg.blockSize 0 ++ msg ++ libStr ++ [0] ++ dst') alg
    let b1 := hash (z ++ [1] ++ dst') alg
    do
      let (_, out) ← (List.range' 2 (ell - 1)).foldlM (expandStep alg dst') ([z, b1], b1)
      if len ≤ out.length then pure (.ok (out.take len)) else none

end Verif.H2c
