import Verif.Aes.Model
import Verif.Spec.Gcm
/-
Model of `src/gcm.rs`.  `u8`, `u32` are bit vectors with wrapping arithmetic (release mode); arrays are
lists.  `&mut [u8]` outputs are returned.  A `(slice, len)` argument pair is used through its first
`len` bytes only (the Rust code panics when the slice is shorter).
-/
namespace Verif.Gcm
open Verif.Aes (AES wd bt Byte)

/-- gcm.rs:20-24 -/
def NB : Nat := 4
def ACCEPTING_HEADER : Nat := 0
def ACCEPTING_CIPHER : Nat := 1
def NOT_ACCEPTING_MORE : Nat := 2
def FINISHED : Nat := 3

/-- `GCM` (gcm.rs:29-38) -/
structure GCM where
  table : List (List (BitVec 32))
  statex : List Byte
  y0 : List Byte
  lena : BitVec 32 × BitVec 32
  lenc : BitVec 32 × BitVec 32
  status : Nat
  a : AES

/-- `GCM::pack` (gcm.rs:41-47) -/
def pack (b : List Byte) : BitVec 32 :=
  (((bt b 0 &&& 0xff).setWidth 32) <<< 24) ||| (((bt b 1 &&& 0xff).setWidth 32) <<< 16)
    ||| (((bt b 2 &&& 0xff).setWidth 32) <<< 8) ||| ((bt b 3 &&& 0xff).setWidth 32)

/-- `GCM::unpack` (gcm.rs:49-58) -/
def unpack (a : BitVec 32) : List Byte :=
  [((a >>> 24) &&& 0xff).setWidth 8, ((a >>> 16) &&& 0xff).setWidth 8, ((a >>> 8) &&& 0xff).setWidth 8,
   (a &&& 0xff).setWidth 8]

/-- one row of the table from the row before (gcm.rs:72-80): `c` is the bit carried between words -/
def nextRow (r : List (BitVec 32)) : List (BitVec 32) :=
  let rc := (List.range NB).foldl (fun (rc : List (BitVec 32) × BitVec 32) j =>
    (rc.1 ++ [rc.2 ||| (wd r j >>> 1)], wd r j <<< 31)) ([], 0)
  if rc.2 ≠ 0 then rc.1.set 0 (wd rc.1 0 ^^^ 0xE1000000) else rc.1

/-- rows 0 … k of the table -/
def rows (r0 : List (BitVec 32)) : Nat → List (List (BitVec 32))
  | 0 => [r0]
  | k + 1 => let t := rows r0 k; t ++ [nextRow (t.getD k [])]

/-- `precompute` (gcm.rs:60-81) -/
def precompute (h : List Byte) : List (List (BitVec 32)) :=
  let r0 := (List.range NB).map fun i => pack [bt h (4 * i), bt h (4 * i + 1), bt h (4 * i + 2), bt h (4 * i + 3)]
  rows r0 127

/-- one pass of the loop of `gf2mul` (gcm.rs:91-105); the state is `(j, m, p)`.  `break` is reached only in
the last pass. -/
def mulStep (table : List (List (BitVec 32))) (statex : List Byte) (s : Nat × Nat × List (BitVec 32)) (i : Nat) :
    Nat × Nat × List (BitVec 32) :=
  let j := s.1 - 1
  let m := s.2.1
  let c : BitVec 32 := ((bt statex m >>> j) &&& 1).setWidth 32
  let c := (~~~ c) + 1
  let p := (List.range NB).map fun k => wd s.2.2 k ^^^ (wd (table.getD i []) k &&& c)
  if j = 0 then (8, m + 1, p) else (j, m, p)

/-- `gf2mul` (gcm.rs:83-115) -/
def gf2mul (table : List (List (BitVec 32))) (statex : List Byte) : List Byte :=
  let s := (List.range 128).foldl (mulStep table statex) (8, 0, [0, 0, 0, 0])
  s.2.2.flatMap unpack

/-- `wrap` (gcm.rs:118-141) -/
def wrap (g : GCM) : GCM :=
  let f := [(g.lena.1 <<< 3) ||| ((g.lena.2 &&& 0xE0000000) >>> 29), g.lena.2 <<< 3,
            (g.lenc.1 <<< 3) ||| ((g.lenc.2 &&& 0xE0000000) >>> 29), g.lenc.2 <<< 3]
  let el := f.flatMap unpack
  { g with statex := gf2mul g.table (List.zipWith (· ^^^ ·) g.statex el) }

/-- the two-word byte counter (gcm.rs:158-161) -/
def bump (l : BitVec 32 × BitVec 32) : BitVec 32 × BitVec 32 :=
  if l.2 + 1 = 0 then (l.1 + 1, l.2 + 1) else (l.1, l.2 + 1)

/-- `bump` once for every byte of a block -/
def bumps (n : Nat) (l : BitVec 32 × BitVec 32) : BitVec 32 × BitVec 32 := (List.range n).foldl (fun l _ => bump l) l

/-- xor a block of at most 16 bytes into the state -/
def xorIn (statex blk : List Byte) : List Byte :=
  List.zipWith (· ^^^ ·) (statex.take blk.length) blk ++ statex.drop blk.length

/-- the loop of `ghash` (gcm.rs:151-165): xor a block in, count its bytes, multiply -/
def ghashLoop (g : GCM) (data : List Byte) : GCM :=
  if h : data = [] then g
  else
    let blk := data.take 16
    ghashLoop { g with statex := gf2mul g.table (xorIn g.statex blk), lenc := bumps blk.length g.lenc } (data.drop 16)
termination_by data.length
decreasing_by
  have := List.length_pos_iff.2 h
  simp; omega

/-- `ghash` (gcm.rs:143-170) -/
def ghash (g : GCM) (plain : List Byte) (len : Nat) : Bool × GCM :=
  let g := if g.status = ACCEPTING_HEADER then { g with status := ACCEPTING_CIPHER } else g
  if g.status ≠ ACCEPTING_CIPHER then (false, g)
  else
    let g := ghashLoop g (plain.take len)
    (true, if len % 16 ≠ 0 then { g with status := NOT_ACCEPTING_MORE } else g)

/-- `GCM::new` (gcm.rs:221-232) -/
def new : GCM :=
  { table := List.replicate 128 [0, 0, 0, 0], statex := List.replicate 16 0, y0 := List.replicate 16 0,
    lena := (0, 0), lenc := (0, 0), status := 0, a := Aes.new }

/-- `init` (gcm.rs:173-219) -/
def init (g : GCM) (nk : Nat) (key : List Byte) (niv : Nat) (iv : List Byte) : GCM :=
  let a := (Aes.init Aes.new Aes.ECB nk key none).2
  let h := Aes.ecbEncrypt a (List.replicate 16 0)
  let g := { g with statex := List.replicate 16 0, a := a, table := precompute h, lena := (0, 0), lenc := (0, 0) }
  let g :=
    if niv = 12 then
      let f := iv.take 12 ++ unpack 1
      { g with a := { g.a with f := f }, y0 := f }
    else
      let g := { g with status := ACCEPTING_CIPHER }
      let g := wrap (ghash g iv niv).2
      { g with a := { g.a with f := g.statex }, y0 := g.statex, statex := List.replicate 16 0, lena := (0, 0), lenc := (0, 0) }
  { g with status := ACCEPTING_HEADER }

/-- the loop of `add_header` (gcm.rs:240-254) -/
def headerLoop (g : GCM) (data : List Byte) : GCM :=
  if h : data = [] then g
  else
    let blk := data.take 16
    headerLoop { g with statex := gf2mul g.table (xorIn g.statex blk), lena := bumps blk.length g.lena } (data.drop 16)
termination_by data.length
decreasing_by
  have := List.length_pos_iff.2 h
  simp; omega

/-- `add_header` (gcm.rs:235-259) -/
def addHeader (g : GCM) (header : List Byte) (len : Nat) : Bool × GCM :=
  if g.status ≠ ACCEPTING_HEADER then (false, g)
  else
    let g := headerLoop g (header.take len)
    (true, if len % 16 ≠ 0 then { g with status := ACCEPTING_CIPHER } else g)

/-- increment of the counter in the last four bytes of `a.f` (gcm.rs:276-286) -/
def incCounter (f : List Byte) : List Byte :=
  f.take 12 ++ unpack (pack [bt f 12, bt f 13, bt f 14, bt f 15] + 1)

/-- the loop of `add_plain` (gcm.rs:275-305): state and ciphertext written so far -/
def plainLoop (g : GCM) (out data : List Byte) : GCM × List Byte :=
  if h : data = [] then (g, out)
  else
    let f := incCounter g.a.f
    let cb := Aes.ecbEncrypt g.a f
    let c := List.zipWith (· ^^^ ·) (data.take 16) cb
    plainLoop { g with a := { g.a with f := f }, statex := gf2mul g.table (xorIn g.statex c), lenc := bumps (data.take 16).length g.lenc }
      (out ++ c) (data.drop 16)
termination_by data.length
decreasing_by
  have := List.length_pos_iff.2 h
  simp; omega

/-- `add_plain` (gcm.rs:262-310): accepted?, ciphertext, new state -/
def addPlain (g : GCM) (plain : List Byte) (len : Nat) : Bool × List Byte × GCM :=
  let g := if g.status = ACCEPTING_HEADER then { g with status := ACCEPTING_CIPHER } else g
  if g.status ≠ ACCEPTING_CIPHER then (false, [], g)
  else
    let r := plainLoop g [] (plain.take len)
    (true, r.2, if len % 16 ≠ 0 then { r.1 with status := NOT_ACCEPTING_MORE } else r.1)

/-- the loop of `add_cipher` (gcm.rs:327-357) -/
def cipherLoop (g : GCM) (out data : List Byte) : GCM × List Byte :=
  if h : data = [] then (g, out)
  else
    let f := incCounter g.a.f
    let cb := Aes.ecbEncrypt g.a f
    let oc := data.take 16
    cipherLoop { g with a := { g.a with f := f }, statex := gf2mul g.table (xorIn g.statex oc), lenc := bumps oc.length g.lenc }
      (out ++ List.zipWith (· ^^^ ·) oc cb) (data.drop 16)
termination_by data.length
decreasing_by
  have := List.length_pos_iff.2 h
  simp; omega

/-- `add_cipher` (gcm.rs:313-362): accepted?, plaintext, new state -/
def addCipher (g : GCM) (cipher : List Byte) (len : Nat) : Bool × List Byte × GCM :=
  let g := if g.status = ACCEPTING_HEADER then { g with status := ACCEPTING_CIPHER } else g
  if g.status ≠ ACCEPTING_CIPHER then (false, [], g)
  else
    let r := cipherLoop g [] (cipher.take len)
    (true, r.2, if len % 16 ≠ 0 then { r.1 with status := NOT_ACCEPTING_MORE } else r.1)

/-- `finish` (gcm.rs:365-385): tag and new state -/
def finish (g : GCM) (extract : Bool) : List Byte × GCM :=
  let g := wrap g
  let r : List Byte × GCM :=
    if extract then
      (List.zipWith (· ^^^ ·) (Aes.ecbEncrypt g.a g.y0) g.statex,
        { g with y0 := List.replicate 16 0, statex := List.replicate 16 0 })
    else (List.replicate 16 0, g)
  (r.1, { r.2 with status := FINISHED, a := Aes.finish r.2.a })

end Verif.Gcm
