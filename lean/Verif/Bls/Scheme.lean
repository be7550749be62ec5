import Verif.Bls.Model
/-
Model of the signature schemes: `src/bls381/core.rs` (lines 480-785), `src/bls381/basic.rs`,
`src/bls381/message_augmentation.rs`, `src/bls381/proof_of_possession.rs`.

The code exists twice, with signatures on G1 and public keys on G2 (functions `*_g1`) and the other way round (`*_g2`); the two
texts differ only in which curve each operation is called on.  The model is one set of definitions over the operations of the two
curves (`Backend`): `V` is the type of points that carry public keys, `S` of those that carry signatures and hashes.
The outer `none` is a panic; `Except` is `Result<_, AmclError>`.
-/
namespace Verif.Bls
open Verif.Big Verif.Rom Verif.H2c
open Spec (Byte)

variable {C : Nat} {V S : Type}

/-- what the schemes call on one curve: `ECP::generator`, `neg`, `add` (ecp.rs) or their `ECP2` namesakes; `pair::g1mul`/`g2mul`
(pair.rs:615-682); `serialize_g*`, `deserialize_g*` (core.rs:135-478); `subgroup_check_g*` (core.rs:106-116);
`frombytes` of ecp.rs/ecp2.rs (used by `fast_aggregate_verify`) -/
structure Side (C : Nat) (X : Type) where
  gen : X
  neg : X → X
  add : X → X → X
  mul : X → Limbs C → Option X
  ser : X → List Byte
  deser : List Byte → Except Err X
  sub : X → Option Bool
  frombytes : List Byte → Option X

/-- `check` is `initmp`, one `another` per pair, `miller`, `fexp`, `isunity` (pair.rs:153-235, 402-533), with the arguments in the
order public-key side, signature side; `hash` is `hash_to_curve_g*` (core.rs:793-833) -/
structure Backend (C : Nat) (V S : Type) where
  pk : Side C V
  sg : Side C S
  hash : List Byte → List Byte → Option S
  check : List (V × S) → Option Bool

/-- `secret_key_to_public_key_g*` (core.rs:503-509, 655-662) -/
def secretKeyToPublicKey (K : Rom C) (B : Backend C V S) (sk : List Byte) : Option (Except Err (List Byte)) := do
  match ← secretKeyFromBytes K sk with
  | .error e => pure (.error e)
  | .ok sk => do
    let p ← B.pk.mul B.pk.gen sk
    pure (.ok (B.pk.ser p))

/-- `key_pair_generate_g*` (core.rs:485-498, 637-650): 32 bytes of the generator as keying material; `expect` panics on an error -/
def keyPairGenerate {σ : Type} (next : σ → Byte × σ) (K : Rom C) (B : Backend C V S) (rng : σ) : Option (List Byte × List Byte × σ) := do
  let r := (List.range 32).foldl (fun (st : List Byte × σ) _ => let b := next st.2; (st.1 ++ [b.1], b.2)) ([], rng)
  let sk ← keyGenerate K r.1 []
  match ← secretKeyToPublicKey K B sk with
  | .error _ => none
  | .ok pk => pure (sk, pk, r.2)

/-- `core_sign_g*` (core.rs:514-524, 667-678) -/
def coreSign (K : Rom C) (B : Backend C V S) (sk msg dst : List Byte) : Option (Except Err (List Byte)) := do
  match ← secretKeyFromBytes K sk with
  | .error e => pure (.error e)
  | .ok sk => do
    let h ← B.hash msg dst
    let s ← B.sg.mul h sk
    pure (.ok (B.sg.ser s))

/-- `core_verify_g*` (core.rs:529-559, 683-713).  `||` does not evaluate its right side when the left side is true: the second
subgroup check is not run when the first one fails (for `_g1` the signature is checked first, for `_g2` the key; no observable
difference). -/
def coreVerify (B : Backend C V S) (pk msg sig dst : List Byte) : Option Bool :=
  match B.pk.deser pk, B.sg.deser sig with
  | .ok pk, .ok sig => do
    if !(← B.sg.sub sig) then pure false
    else if !(← B.pk.sub pk) then pure false
    else do
      let h ← B.hash msg dst
      B.check [(B.pk.neg B.pk.gen, sig), (pk, h)]
  | _, _ => some false

/-- the loop of `aggregate_g*` (core.rs:570-572, 724-726) -/
def sumPoints (sd : Side C S) (acc : S) : List (List Byte) → Except Err S
  | [] => .ok acc
  | p :: ps => match sd.deser p with
    | .error e => .error e
    | .ok q => sumPoints sd (sd.add acc q) ps

/-- `aggregate_g*` (core.rs:564-575, 718-729) -/
def aggregate (B : Backend C V S) : List (List Byte) → Except Err (List Byte)
  | [] => .error .aggregateEmptyPoints
  | p :: ps => match B.sg.deser p with
    | .error e => .error e
    | .ok q => match sumPoints B.sg q ps with
      | .error e => .error e
      | .ok s => .ok (B.sg.ser s)

/-- the loop of `core_aggregate_verify_g*` (core.rs:606-621, 762-778): `none` inside is the early `return false` -/
def pairsLoop (B : Backend C V S) (dst : List Byte) : List (List Byte) → List (List Byte) → Option (Option (List (V × S)))
  | [], _ => some (some [])
  | _ :: _, [] => none
  | k :: ks, m :: ms =>
    match B.pk.deser k with
    | .error _ => some none
    | .ok pk => do
      if !(← B.pk.sub pk) then pure none
      else do
        let h ← B.hash m dst
        match ← pairsLoop B dst ks ms with
        | none => pure none
        | some l => pure (some ((pk, h) :: l))

/-- `core_aggregate_verify_g*` (core.rs:580-627, 734-785).  `_g2` reads the signature before testing the lengths; both
return `false`. -/
def coreAggregateVerify (B : Backend C V S) (pks msgs : List (List Byte)) (sig dst : List Byte) : Option Bool :=
  if pks.length = 0 ∨ pks.length ≠ msgs.length then some false
  else
    match B.sg.deser sig with
    | .error _ => some false
    | .ok sig => do
      if !(← B.sg.sub sig) then pure false
      else
        match ← pairsLoop B dst pks msgs with
        | none => pure false
        | some l => B.check ((B.pk.neg B.pk.gen, sig) :: l)

/-- the uniqueness test of basic.rs:72-78, 127-136 -/
def repeats (msgs : List (List Byte)) : Bool :=
  (List.range msgs.length).any fun i => (List.range msgs.length).any fun j =>
    i != j && msgs.getD i [] == msgs.getD j []

namespace Basic
/-- `basic::sign_g*` (basic.rs:49-51, 104-106); `dst` is `DST_G1`/`DST_G2` (basic.rs:10-12) -/
def sign (K : Rom C) (B : Backend C V S) (dst sk msg : List Byte) := coreSign K B sk msg dst
/-- `basic::verify_g*` (basic.rs:56-58, 111-113) -/
def verify (B : Backend C V S) (dst pk msg sig : List Byte) := coreVerify B pk msg sig dst
/-- `basic::aggregate_verify_g*` (basic.rs:70-82, 125-139) -/
def aggregateVerify (B : Backend C V S) (dst : List Byte) (pks msgs : List (List Byte)) (sig : List Byte) : Option Bool :=
  if repeats msgs then some false else coreAggregateVerify B pks msgs sig dst
end Basic

namespace Aug
/-- `message_augmentation::sign_g*` (message_augmentation.rs:49-59, 121-131) -/
def sign (K : Rom C) (B : Backend C V S) (dst sk msg pk : List Byte) := coreSign K B sk (pk ++ msg) dst
/-- `message_augmentation::verify_g*` (message_augmentation.rs:64-70, 136-142) -/
def verify (B : Backend C V S) (dst pk msg sig : List Byte) := coreVerify B pk (pk ++ msg) sig dst
/-- the augmentation loop (message_augmentation.rs:85-91, 157-163): `public_keys[i]` panics when there are more messages than keys -/
def augment : List (List Byte) → List (List Byte) → Option (List (List Byte))
  | _, [] => some []
  | [], _ :: _ => none
  | k :: ks, m :: ms => (augment ks ms).map ((k ++ m) :: ·)
/-- `message_augmentation::aggregate_verify_g*` (message_augmentation.rs:82-98, 154-170) -/
def aggregateVerify (B : Backend C V S) (dst : List Byte) (pks msgs : List (List Byte)) (sig : List Byte) : Option Bool := do
  let ms ← augment pks msgs
  coreAggregateVerify B pks ms sig dst
end Aug

namespace Pop
/-- `proof_of_possession::sign_g*` (proof_of_possession.rs:59-61, 193-195) -/
def sign (K : Rom C) (B : Backend C V S) (dst sk msg : List Byte) := coreSign K B sk msg dst
/-- `proof_of_possession::verify_g*` (proof_of_possession.rs:66-68, 200-202) -/
def verify (B : Backend C V S) (dst pk msg sig : List Byte) := coreVerify B pk msg sig dst
/-- `proof_of_possession::aggregate_verify_g*` (proof_of_possession.rs:80-82, 214-216) -/
def aggregateVerify (B : Backend C V S) (dst : List Byte) (pks msgs : List (List Byte)) (sig : List Byte) := coreAggregateVerify B pks msgs sig dst
/-- `pop_prove_g*` (proof_of_possession.rs:87-97, 221-231); `dst` is `DST_POP_G1`/`DST_POP_G2` -/
def popProve (K : Rom C) (B : Backend C V S) (dst sk : List Byte) : Option (Except Err (List Byte)) := do
  match ← secretKeyFromBytes K sk with
  | .error e => pure (.error e)
  | .ok sk => do
    let p ← B.pk.mul B.pk.gen sk
    let h ← B.hash (B.pk.ser p) dst
    let s ← B.sg.mul h sk
    pure (.ok (B.sg.ser s))
/-- `pop_verify_g*` (proof_of_possession.rs:102-130, 236-264) -/
def popVerify (B : Backend C V S) (dst pk proof : List Byte) : Option Bool :=
  match B.sg.deser proof, B.pk.deser pk with
  | .ok sig, .ok p => do
    if !(← B.sg.sub sig) then pure false
    else if !(← B.pk.sub p) then pure false
    else do
      let h ← B.hash pk dst
      B.check [(B.pk.neg B.pk.gen, sig), (p, h)]
  | _, _ => some false
/-- `fast_aggregate_verify_g*` (proof_of_possession.rs:135-170, 269-304): the first key is read by `ECP(2)::frombytes`, the others by
`deserialize`; there are no subgroup checks -/
def fastAggregateVerify (B : Backend C V S) (dst : List Byte) (pks : List (List Byte)) (msg sig : List Byte) : Option Bool :=
  match pks with
  | [] => some false
  | k :: ks =>
    match B.sg.deser sig with
    | .error _ => some false
    | .ok sig => do
      let h ← B.hash msg dst
      let p ← B.pk.frombytes k
      match sumPoints B.pk p ks with
      | .error _ => pure false
      | .ok p => B.check [(B.pk.neg B.pk.gen, sig), (p, h)]
end Pop

end Verif.Bls
