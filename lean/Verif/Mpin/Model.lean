import Verif.Ecdh.PubKey
import Verif.Pair.Model
/-
Model of `src/mpin.rs` (lines 118-690, one curve per ROM file): hashing to G1, secret sharing, PIN extraction, the client and server steps of the M-Pin protocol.
`none` is a panic (an index out of range) or a loop that does not end.  Not modelled: `encoding`/`decoding` (Elligator), `precompute`, `kangaroo`, `hash_all`, `client_key`,
`server_key`, the clock (`today`, `get_time`).
-/
namespace Verif.Mpin
open Spec (Byte)
open Verif.Big Verif.Rom Verif.Ecp Verif.Pair Verif.Ecdh
open Verif.Sha2 (P256 P384 P512)

variable {C : Nat} {σ : Type}

/-- one of the three branches of `hashit` (mpin.rs:119-178): the number first, if positive, then the string -/
def hashBranch {w : Nat} (P : Sha2.Params w) (n : Nat) (id : List Byte) : List Byte :=
  let h := Sha2.new P
  let h := if n > 0 then Sha2.processNum P h (BitVec.ofNat 32 n) else h
  (Sha2.hash P (Sha2.processArray P h id)).1

/-- `hashit` (mpin.rs:119-178): the returned flag and the new contents of `w` -/
def hashit (mb sha n : Nat) (id w : List Byte) : Option (Bool × List Byte) :=
  if sha = 32 ∨ sha = 48 ∨ sha = 64 then do
    let r := if sha = 32 then hashBranch P256 n id else if sha = 48 then hashBranch P384 n id else hashBranch P512 n id
    let r := r ++ List.replicate (64 - sha) 0
    if sha > mb then
      let w ← write w 0 (r.take mb)
      pure (true, w)
    else
      let w ← write w (mb - sha) (r.take sha)
      let w ← write w 0 (List.replicate (mb - sha) 0)
      pure (true, w)
  else pure (false, w)

/-- the loops of `ECP::mapit` (ecp.rs:1201-1218), written as one loop: both loops try the next abscissa.  `f` bounds the number of passes. -/
def mapLoop (K : Rom C) : Nat → Limbs C → Option (Pt C)
  | 0, _ => none
  | f + 1, x =>
    let P := if K.ctype = .montgomery then newBigX K x else newBigint K x 0
    let x := Big.norm K.P.b (inc K.P.b x 1)
    if isInfinity K P then mapLoop K f x
    else (cfp K P).bind fun Q => if isInfinity K Q then mapLoop K f x else some Q

/-- `ECP::mapit` (ecp.rs:1195-1221) -/
def mapit (K : Rom C) (f : Nat) (h : List Byte) : Option (Pt C) :=
  (rmod K.P.b (fuel K) (fromBytes K.P.b K.P.n K.modbytes h) K.P.md).bind (mapLoop K f)

/-- `hashit` into a fresh array of `MODBYTES` zeros (e.g. mpin.rs:425-430, the flag is ignored there) followed by `mapit` -/
def hashPoint (K : Rom C) (f sha n : Nat) (id : List Byte) : Option (List Byte × Pt C) := do
  let h ← hashit K.modbytes sha n id (List.replicate K.modbytes 0)
  let P ← mapit K f h.2
  pure (h.2, P)

/-- `hash_id` (mpin.rs:228-230) -/
def hashId (K : Rom C) (sha : Nat) (id w : List Byte) : Option (Bool × List Byte) := hashit K.modbytes sha 0 id w

/-- `recombine_g1` (mpin.rs:318-330): status (INVALID_POINT = -14) and the buffer `r` -/
def recombineG1 (K : Rom C) (r1 r2 r : List Byte) : Option (Int × List Byte) := do
  let P ← Ecp.frombytes K r1
  let Q ← Ecp.frombytes K r2
  if isInfinity K P || isInfinity K Q then pure (-14, r)
  else
    let r ← Ecp.tobytes K (Ecp.add K P Q) r false
    pure (0, r)

/-- `recombine_g2` (mpin.rs:334-346) -/
def recombineG2 (K : PairRom C) (w1 w2 w : List Byte) : Option (Int × List Byte) := do
  let P ← Ecp2.frombytes K w1
  let Q ← Ecp2.frombytes K w2
  if Ecp2.isInfinity K P || Ecp2.isInfinity K Q then pure (-14, w)
  else
    let w ← Ecp2.tobytes K (Ecp2.add K P Q) w
    pure (0, w)

/-- `random_generate` (mpin.rs:349-354) -/
def randomGenerate (next : σ → Byte × σ) (K : Rom C) (rng : σ) (s : List Byte) : Option (List Byte × σ) :=
  let r := randomnum next K.P.b (fuel K) K.order rng
  r.1.bind fun sc => (bigInto K sc s).map fun s => (s, r.2)

/-- `get_server_secret` (mpin.rs:358-365) -/
def serverSecret (K : GlsRom C) (s sst : List Byte) : Option (Int × List Byte) := do
  let R := K.pair.rom
  let Q ← g2mul K (Ecp2.generator K.pair) (fromBytes R.P.b R.P.n R.modbytes s)
  let sst ← Ecp2.tobytes K.pair Q sst
  pure (0, sst)

/-- `get_g1_multiple` (mpin.rs:372-401) without a generator: the scalar is read from `x` -/
def g1Multiple (K : GlsRom C) (f typ : Nat) (x g w : List Byte) : Option (Int × List Byte) := do
  let R := K.pair.rom
  let sx := fromBytes R.P.b R.P.n R.modbytes x
  if typ = 0 then
    let P ← Ecp.frombytes R g
    if isInfinity R P then pure (-14, w)
    else
      let Q ← g1mul K P sx
      let w ← Ecp.tobytes R Q w false
      pure (0, w)
  else
    let P ← mapit R f g
    let Q ← g1mul K P sx
    let w ← Ecp.tobytes R Q w false
    pure (0, w)

/-- `get_client_secret` (mpin.rs:405-407) -/
def clientSecret (K : GlsRom C) (f : Nat) (s cid cst : List Byte) : Option (Int × List Byte) := g1Multiple K f 1 s cid cst

/-- `extract_factor` (mpin.rs:417-439) -/
def extractFactor (K : Rom C) (f sha : Nat) (cid : List Byte) (factor : BitVec 32) (facbits : Nat) (token : List Byte) : Option (Int × List Byte) := do
  let P ← Ecp.frombytes K token
  if isInfinity K P then pure (-14, token)
  else
    let h ← hashPoint K f sha 0 cid
    let R ← pinmul K h.2 factor facbits
    let token ← Ecp.tobytes K (Ecp.sub K P R) token false
    pure (0, token)

/-- `restore_factor` (mpin.rs:443-465) -/
def restoreFactor (K : Rom C) (f sha : Nat) (cid : List Byte) (factor : BitVec 32) (facbits : Nat) (token : List Byte) : Option (Int × List Byte) := do
  let P ← Ecp.frombytes K token
  if isInfinity K P then pure (-14, token)
  else
    let h ← hashPoint K f sha 0 cid
    let R ← pinmul K h.2 factor facbits
    let token ← Ecp.tobytes K (Ecp.add K P R) token false
    pure (0, token)

/-- `extract_pin` (mpin.rs:411-413), with MAXPIN = 10000 and PBLEN = 14 -/
def extractPin (K : Rom C) (f sha : Nat) (cid : List Byte) (pin : BitVec 32) (token : List Byte) : Option (Int × List Byte) :=
  extractFactor K f sha cid (pin.srem 10000#32) 14 token

/-- `get_client_permit` (mpin.rs:492-501) -/
def clientPermit (K : GlsRom C) (f sha date : Nat) (s cid ctt : List Byte) : Option (Int × List Byte) := do
  let R := K.pair.rom
  let h ← hashPoint R f sha date cid
  let Q ← g1mul K h.2 (fromBytes R.P.b R.P.n R.modbytes s)
  let ctt ← Ecp.tobytes R Q ctt false
  pure (0, ctt)

/-- what `client_1` leaves behind: status, `sec`, `xid`, `xcid` -/
structure Client1 where
  code : Int
  sec : List Byte
  xid : Option (List Byte)
  xcid : Option (List Byte)

/-- write a point into an optional buffer -/
def put (K : Rom C) (s : Pt C) : Option (List Byte) → Option (Option (List Byte))
  | none => some none
  | some buf => (Ecp.tobytes K s buf false).map some

/-- the time permit (mpin.rs:543-545): read from its buffer, if there is one; otherwise the variable `W`, the multiple of the PIN, is used again -/
def permitPt (K : Rom C) (W : Pt C) : Option (List Byte) → Option (Pt C)
  | some p => Ecp.frombytes K p
  | none => some W

/-- `client_1` (mpin.rs:505-574) for the scalar `sx`; `pin as i32` is its low 32 bits -/
def client1 (K : GlsRom C) (f sha date : Nat) (id : List Byte) (sx : Limbs C) (pin : Nat) (token sec : List Byte) (xid xcid permit : Option (List Byte)) : Option Client1 := do
  let R := K.pair.rom
  let hP ← hashPoint R f sha 0 id
  let T ← Ecp.frombytes R token
  if isInfinity R T then pure ⟨-14, sec, xid, xcid⟩
  else
    let W ← pinmul R hP.2 ((BitVec.ofNat 32 pin).srem 10000#32) 14
    let T := Ecp.add R T W
    if date ≠ 0 then
      let W ← permitPt R W permit
      if isInfinity R W then pure ⟨-14, sec, xid, xcid⟩
      else
        let T := Ecp.add R T W
        let hW ← hashPoint R f sha date hP.1
        match xid with
        | some x =>
          let P ← g1mul K hP.2 sx
          let x ← Ecp.tobytes R P x false
          let W ← g1mul K hW.2 sx
          let xcid ← put R (Ecp.add R P W) xcid
          let sec ← Ecp.tobytes R T sec false
          pure ⟨0, sec, some x, xcid⟩
        | none =>
          let P ← g1mul K (Ecp.add R hP.2 hW.2) sx
          let xcid ← put R P xcid
          let sec ← Ecp.tobytes R T sec false
          pure ⟨0, sec, none, xcid⟩
    else
      match xid with
      | some x =>
        let P ← g1mul K hP.2 sx
        let x ← Ecp.tobytes R P x false
        let sec ← Ecp.tobytes R T sec false
        pure ⟨0, sec, some x, xcid⟩
      | none =>
        let sec ← Ecp.tobytes R T sec false
        pure ⟨0, sec, none, xcid⟩

/-- `client_1` with the scalar read from `x` (mpin.rs:529-531) -/
def client1Ext (K : GlsRom C) (f sha date : Nat) (id x : List Byte) (pin : Nat) (token sec : List Byte) (xid xcid permit : Option (List Byte)) : Option Client1 :=
  client1 K f sha date id (fromBytes K.pair.rom.P.b K.pair.rom.P.n K.pair.rom.modbytes x) pin token sec xid xcid permit

/-- `server_1` (mpin.rs:578-596): the buffers `hid`, `htid` -/
def server1 (K : Rom C) (f sha date : Nat) (cid hid : List Byte) (htid : Option (List Byte)) : Option (List Byte × Option (List Byte)) := do
  let hP ← hashPoint K f sha 0 cid
  let hid ← Ecp.tobytes K hP.2 hid false
  if date ≠ 0 then
    let hR ← hashPoint K f sha date hP.1
    let htid ← put K (Ecp.add K hP.2 hR.2) htid
    pure (hid, htid)
  else pure (hid, htid)

/-- `client_2` (mpin.rs:600-617): status and the buffer `sec` -/
def client2 (K : GlsRom C) (x y sec : List Byte) : Option (Int × List Byte) := do
  let R := K.pair.rom
  let P ← Ecp.frombytes R sec
  if isInfinity R P then pure (-14, sec)
  else
    let px ← rmod R.P.b (fuel R) (add (fromBytes R.P.b R.P.n R.modbytes x) (fromBytes R.P.b R.P.n R.modbytes y)) R.order
    let P ← g1mul K P px
    let sec ← Ecp.tobytes R (Ecp.neg R P) sec false
    pure (0, sec)

/-- `get_y` (mpin.rs:628-638) -/
def getY (K : Rom C) (sha time : Nat) (xcid y : List Byte) : Option (List Byte) := do
  let h ← hashit K.modbytes sha time xcid (List.replicate K.modbytes 0)
  let sy ← rmod K.P.b (fuel K) (fromBytes K.P.b K.P.n K.modbytes h.2) K.order
  bigInto K sy y

/-- `server_2` (mpin.rs:642-735) without the diagnostic outputs `e`, `f`: 0, INVALID_POINT = -14, BAD_PARAMS = -11 or BAD_PIN = -19.
`check q R s P` stands for `fexp(ate2(q, R, s, P)).isunity()`; `ate2` is not modelled. -/
def server2 (check : Ecp2.Pt2 C → Pt C → Ecp2.Pt2 C → Pt C → Option Bool) (K : GlsRom C) (date : Nat) (hid : List Byte) (htid : Option (List Byte)) (y sst : List Byte)
    (xid xcid : Option (List Byte)) (msec : List Byte) : Option Int := do
  let R := K.pair.rom
  let sQ ← Ecp2.frombytes K.pair sst
  if Ecp2.isInfinity K.pair sQ then pure (-14)
  else
    match (if date ≠ 0 then xcid else xid) with
    | none => pure (-11)
    | some u =>
      let U ← Ecp.frombytes R u
      if isInfinity R U then pure (-14)
      else
        match (if date ≠ 0 then htid else some hid) with
        | none => pure (-11)
        | some v =>
          let P ← Ecp.frombytes R v
          if isInfinity R P then pure (-14)
          else
            let P ← g1mul K P (fromBytes R.P.b R.P.n R.modbytes y)
            let P := Ecp.add R P U
            let M ← Ecp.frombytes R msec
            if isInfinity R M then pure (-14)
            else
              let ok ← check (Ecp2.generator K.pair) M sQ P
              pure (if ok then 0 else -19)

end Verif.Mpin
