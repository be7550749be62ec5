import Verif.Aes.Tables
/-
Model of `src/aes.rs`.  `u8`, `u32` are bit vectors with wrapping arithmetic (release mode); arrays are
lists, read with a default for out-of-range indices (the Rust code would panic there).
-/
namespace Verif.Aes

abbrev Byte := BitVec 8

/-- array reads -/
def wd (w : List (BitVec 32)) (i : Nat) : BitVec 32 := w.getD i 0
def bt (b : List Byte) (i : Nat) : Byte := b.getD i 0

/-- `AES` (aes.rs:176-183) -/
structure AES where
  nk : Nat
  nr : Nat
  mode : Nat
  fkey : List (BitVec 32)
  rkey : List (BitVec 32)
  f : List Byte

/-- aes.rs:186-196 -/
def rotl8 (x : BitVec 32) : BitVec 32 := (x <<< 8) ||| (x >>> 24)
def rotl16 (x : BitVec 32) : BitVec 32 := (x <<< 16) ||| (x >>> 16)
def rotl24 (x : BitVec 32) : BitVec 32 := (x <<< 24) ||| (x >>> 8)

/-- `pack` (aes.rs:198-204); the masks with 0xff on bytes do nothing -/
def pack (b : List Byte) : BitVec 32 :=
  (((bt b 3).setWidth 32) <<< 24) ||| (((bt b 2).setWidth 32) <<< 16) ||| (((bt b 1).setWidth 32) <<< 8)
    ||| ((bt b 0).setWidth 32)

/-- `unpack` (aes.rs:206-214) -/
def unpack (a : BitVec 32) : List Byte :=
  [(a &&& 0xff).setWidth 8, ((a >>> 8) &&& 0xff).setWidth 8, ((a >>> 16) &&& 0xff).setWidth 8,
   ((a >>> 24) &&& 0xff).setWidth 8]

/-- `bmul` (aes.rs:216-228) -/
def bmul (x y : Byte) : Byte :=
  let lx := (bt LTAB x.toNat).toNat
  let ly := (bt LTAB y.toNat).toNat
  if x ≠ 0 ∧ y ≠ 0 then bt PTAB ((lx + ly) % 255) else 0

/-- `subbyte` (aes.rs:230-237) -/
def subbyte (a : BitVec 32) : BitVec 32 :=
  let b := unpack a
  pack [bt FBSUB (bt b 0).toNat, bt FBSUB (bt b 1).toNat, bt FBSUB (bt b 2).toNat, bt FBSUB (bt b 3).toNat]

/-- `product` (aes.rs:239-248) -/
def product (x y : BitVec 32) : Byte :=
  let xb := unpack x
  let yb := unpack y
  bmul (bt xb 0) (bt yb 0) ^^^ bmul (bt xb 1) (bt yb 1) ^^^ bmul (bt xb 2) (bt yb 2) ^^^ bmul (bt xb 3) (bt yb 3)

/-- `invmixcol` (aes.rs:250-263) -/
def invmixcol (x : BitVec 32) : BitVec 32 :=
  let m3 := pack INCO
  let m2 := rotl24 m3
  let m1 := rotl24 m2
  let m0 := rotl24 m1
  pack [product m0 x, product m1 x, product m2 x, product m3 x]

/-- `increment` (aes.rs:265-272): little-endian, wrapping -/
def increment : List Byte → List Byte
  | [] => []
  | x :: xs => if x + 1 ≠ 0 then (x + 1) :: xs else (x + 1) :: increment xs

/-- `AES::new` (aes.rs:274-283) -/
def new : AES :=
  { nk := 0, nr := 0, mode := 0, fkey := List.replicate 60 0, rkey := List.replicate 60 0, f := List.replicate 16 0 }

/-- mode numbers (aes.rs:20-34) -/
def ECB : Nat := 0
def CBC : Nat := 1
def CFB1 : Nat := 2
def CFB2 : Nat := 3
def CFB4 : Nat := 5
def OFB1 : Nat := 14
def OFB2 : Nat := 15
def OFB4 : Nat := 17
def OFB8 : Nat := 21
def OFB16 : Nat := 29
def CTR1 : Nat := 30
def CTR2 : Nat := 31
def CTR4 : Nat := 33
def CTR8 : Nat := 37
def CTR16 : Nat := 45

/-- `reset` (aes.rs:286-299) -/
def reset (a : AES) (m : Nat) (iv : Option (List Byte)) : AES :=
  { a with
    mode := m
    f := if m ≠ ECB then iv.getD (List.replicate 16 0) else List.replicate 16 0 }

/-- one inner step `fkey[t] = fkey[t-nk] ^ fkey[t-1]` guarded by the `break` (aes.rs:331-336); once the
guard fails it fails for all later steps, so skipping equals breaking -/
def schedStep (nk n j : Nat) (fk : List (BitVec 32)) (i : Nat) : List (BitVec 32) :=
  if i + j ≥ n then fk else fk.set (i + j) (wd fk (i + j - nk) ^^^ wd fk (i + j - 1))

/-- the body of the `while j < n` loop (aes.rs:327-357) -/
def schedBlock (nk n j k : Nat) (fk : List (BitVec 32)) : List (BitVec 32) :=
  let fk := fk.set j (wd fk (j - nk) ^^^ subbyte (rotl24 (wd fk (j - 1))) ^^^ (bt RCO k).setWidth 32)
  if nk ≤ 6 then
    (List.range' 1 (nk - 1)).foldl (schedStep nk n j) fk
  else
    let fk := (List.range' 1 3).foldl (schedStep nk n j) fk
    let fk := if j + 4 < n then fk.set (j + 4) (wd fk (j + 4 - nk) ^^^ subbyte (wd fk (j + 3))) else fk
    (List.range' 5 (nk - 5)).foldl (schedStep nk n j) fk

/-- the `while j < n` loop (aes.rs:325-360); `j` grows by `nk ≥ 4`, so `n` iterations suffice -/
def schedLoop (nk n : Nat) : (fuel : Nat) → (j k : Nat) → List (BitVec 32) → List (BitVec 32)
  | 0, _, _, fk => fk
  | fuel + 1, j, k, fk => if j < n then schedLoop nk n fuel (j + nk) (k + 1) (schedBlock nk n j k fk) else fk

/-- the decryption key (aes.rs:362-378): every cell `x < n` of `rkey` is written exactly once, from
`fkey[n-4-4(x/4) + x%4]`, through `invmixcol` except in the first and last round -/
def invKey (n : Nat) (fk rk : List (BitVec 32)) : List (BitVec 32) :=
  (List.range 60).map fun x =>
    if x < n then
      let v := wd fk (n - 4 - 4 * (x / 4) + x % 4)
      if x < 4 ∨ n - 4 ≤ x then v else invmixcol v
    else wd rk x

/-- `init` (aes.rs:301-379) -/
def init (a : AES) (m nkey : Nat) (key : List Byte) (iv : Option (List Byte)) : Bool × AES :=
  let nk := nkey / 4
  if nk ≠ 4 ∧ nk ≠ 6 ∧ nk ≠ 8 then (false, a)
  else
    let nr := 6 + nk
    let a := reset { a with nk := nk, nr := nr } m iv
    let n := 4 * (nr + 1)
    let fk := (List.range nk).foldl (fun fk i =>
      fk.set i (pack [bt key (4 * i), bt key (4 * i + 1), bt key (4 * i + 2), bt key (4 * i + 3)])) a.fkey
    let fk := schedLoop nk n n nk 0 fk
    (true, { a with fkey := fk, rkey := invKey n fk a.rkey })

/-- table lookups -/
def ft (x : BitVec 32) : BitVec 32 := wd FTABLE x.toNat
def rt (x : BitVec 32) : BitVec 32 := wd RTABLE x.toNat
def fb (x : BitVec 32) : BitVec 32 := (bt FBSUB x.toNat).setWidth 32
def rb (x : BitVec 32) : BitVec 32 := (bt RBSUB x.toNat).setWidth 32

/-- one full round of `ecb_encrypt` (aes.rs:409-432) -/
def encRound (key : List (BitVec 32)) (k : Nat) (p : List (BitVec 32)) : List (BitVec 32) :=
  [wd key k ^^^ ft (wd p 0 &&& 0xff) ^^^ rotl8 (ft ((wd p 1 >>> 8) &&& 0xff))
     ^^^ rotl16 (ft ((wd p 2 >>> 16) &&& 0xff)) ^^^ rotl24 (ft ((wd p 3 >>> 24) &&& 0xff)),
   wd key (k + 1) ^^^ ft (wd p 1 &&& 0xff) ^^^ rotl8 (ft ((wd p 2 >>> 8) &&& 0xff))
     ^^^ rotl16 (ft ((wd p 3 >>> 16) &&& 0xff)) ^^^ rotl24 (ft ((wd p 0 >>> 24) &&& 0xff)),
   wd key (k + 2) ^^^ ft (wd p 2 &&& 0xff) ^^^ rotl8 (ft ((wd p 3 >>> 8) &&& 0xff))
     ^^^ rotl16 (ft ((wd p 0 >>> 16) &&& 0xff)) ^^^ rotl24 (ft ((wd p 1 >>> 24) &&& 0xff)),
   wd key (k + 3) ^^^ ft (wd p 3 &&& 0xff) ^^^ rotl8 (ft ((wd p 0 >>> 8) &&& 0xff))
     ^^^ rotl16 (ft ((wd p 1 >>> 16) &&& 0xff)) ^^^ rotl24 (ft ((wd p 2 >>> 24) &&& 0xff))]

/-- last round of `ecb_encrypt` (aes.rs:444-466) -/
def encLast (key : List (BitVec 32)) (k : Nat) (p : List (BitVec 32)) : List (BitVec 32) :=
  [wd key k ^^^ fb (wd p 0 &&& 0xff) ^^^ rotl8 (fb ((wd p 1 >>> 8) &&& 0xff))
     ^^^ rotl16 (fb ((wd p 2 >>> 16) &&& 0xff)) ^^^ rotl24 (fb ((wd p 3 >>> 24) &&& 0xff)),
   wd key (k + 1) ^^^ fb (wd p 1 &&& 0xff) ^^^ rotl8 (fb ((wd p 2 >>> 8) &&& 0xff))
     ^^^ rotl16 (fb ((wd p 3 >>> 16) &&& 0xff)) ^^^ rotl24 (fb ((wd p 0 >>> 24) &&& 0xff)),
   wd key (k + 2) ^^^ fb (wd p 2 &&& 0xff) ^^^ rotl8 (fb ((wd p 3 >>> 8) &&& 0xff))
     ^^^ rotl16 (fb ((wd p 0 >>> 16) &&& 0xff)) ^^^ rotl24 (fb ((wd p 1 >>> 24) &&& 0xff)),
   wd key (k + 3) ^^^ fb (wd p 3 &&& 0xff) ^^^ rotl8 (fb ((wd p 0 >>> 8) &&& 0xff))
     ^^^ rotl16 (fb ((wd p 1 >>> 16) &&& 0xff)) ^^^ rotl24 (fb ((wd p 2 >>> 24) &&& 0xff))]

/-- one full round of `ecb_decrypt` (aes.rs:497-520) -/
def decRound (key : List (BitVec 32)) (k : Nat) (p : List (BitVec 32)) : List (BitVec 32) :=
  [wd key k ^^^ rt (wd p 0 &&& 0xff) ^^^ rotl8 (rt ((wd p 3 >>> 8) &&& 0xff))
     ^^^ rotl16 (rt ((wd p 2 >>> 16) &&& 0xff)) ^^^ rotl24 (rt ((wd p 1 >>> 24) &&& 0xff)),
   wd key (k + 1) ^^^ rt (wd p 1 &&& 0xff) ^^^ rotl8 (rt ((wd p 0 >>> 8) &&& 0xff))
     ^^^ rotl16 (rt ((wd p 3 >>> 16) &&& 0xff)) ^^^ rotl24 (rt ((wd p 2 >>> 24) &&& 0xff)),
   wd key (k + 2) ^^^ rt (wd p 2 &&& 0xff) ^^^ rotl8 (rt ((wd p 1 >>> 8) &&& 0xff))
     ^^^ rotl16 (rt ((wd p 0 >>> 16) &&& 0xff)) ^^^ rotl24 (rt ((wd p 3 >>> 24) &&& 0xff)),
   wd key (k + 3) ^^^ rt (wd p 3 &&& 0xff) ^^^ rotl8 (rt ((wd p 2 >>> 8) &&& 0xff))
     ^^^ rotl16 (rt ((wd p 1 >>> 16) &&& 0xff)) ^^^ rotl24 (rt ((wd p 0 >>> 24) &&& 0xff))]

/-- last round of `ecb_decrypt` (aes.rs:532-554) -/
def decLast (key : List (BitVec 32)) (k : Nat) (p : List (BitVec 32)) : List (BitVec 32) :=
  [wd key k ^^^ rb (wd p 0 &&& 0xff) ^^^ rotl8 (rb ((wd p 3 >>> 8) &&& 0xff))
     ^^^ rotl16 (rb ((wd p 2 >>> 16) &&& 0xff)) ^^^ rotl24 (rb ((wd p 1 >>> 24) &&& 0xff)),
   wd key (k + 1) ^^^ rb (wd p 1 &&& 0xff) ^^^ rotl8 (rb ((wd p 0 >>> 8) &&& 0xff))
     ^^^ rotl16 (rb ((wd p 3 >>> 16) &&& 0xff)) ^^^ rotl24 (rb ((wd p 2 >>> 24) &&& 0xff)),
   wd key (k + 2) ^^^ rb (wd p 2 &&& 0xff) ^^^ rotl8 (rb ((wd p 1 >>> 8) &&& 0xff))
     ^^^ rotl16 (rb ((wd p 0 >>> 16) &&& 0xff)) ^^^ rotl24 (rb ((wd p 3 >>> 24) &&& 0xff)),
   wd key (k + 3) ^^^ rb (wd p 3 &&& 0xff) ^^^ rotl8 (rb ((wd p 2 >>> 8) &&& 0xff))
     ^^^ rotl16 (rb ((wd p 1 >>> 16) &&& 0xff)) ^^^ rotl24 (rb ((wd p 0 >>> 24) &&& 0xff))]

/-- loading the block and adding the first round key (aes.rs:395-403, 483-491) -/
def load (key : List (BitVec 32)) (buff : List Byte) : List (BitVec 32) :=
  (List.range 4).map fun i =>
    pack [bt buff (4 * i), bt buff (4 * i + 1), bt buff (4 * i + 2), bt buff (4 * i + 3)] ^^^ wd key i

/-- `ecb_encrypt` (aes.rs:390-475); the swap of `p` and `q` only renames them -/
def ecbEncrypt (a : AES) (buff : List Byte) : List Byte :=
  let p := load a.fkey buff
  let pk := (List.range (a.nr - 1)).foldl (fun (pk : List (BitVec 32) × Nat) _ => (encRound a.fkey pk.2 pk.1, pk.2 + 4)) (p, 4)
  (encLast a.fkey pk.2 pk.1).flatMap unpack

/-- `ecb_decrypt` (aes.rs:478-563) -/
def ecbDecrypt (a : AES) (buff : List Byte) : List Byte :=
  let p := load a.rkey buff
  let pk := (List.range (a.nr - 1)).foldl (fun (pk : List (BitVec 32) × Nat) _ => (decRound a.rkey pk.2 pk.1, pk.2 + 4)) (p, 4)
  (decLast a.rkey pk.2 pk.1).flatMap unpack

/-- bytewise xor of the first `bytes` bytes of `buff` with `st` -/
def xorFirst (bytes : Nat) (buff st : List Byte) : List Byte :=
  List.zipWith (· ^^^ ·) (buff.take bytes) (st.take bytes) ++ buff.drop bytes

/-- the value returned by the CFB modes: the bytes shifted out (aes.rs:589-591) -/
def fellOff (bytes : Nat) (f : List Byte) : BitVec 32 :=
  (f.take bytes).foldl (fun acc x => (acc <<< 8) ||| x.setWidth 32) 0

/-- `encrypt` (aes.rs:566-643): new object, new buffer, returned word -/
def encrypt (a : AES) (buff : List Byte) : AES × List Byte × BitVec 32 :=
  if a.mode = ECB then (a, ecbEncrypt a buff, 0)
  else if a.mode = CBC then
    let out := ecbEncrypt a (List.zipWith (· ^^^ ·) buff a.f)
    ({ a with f := out }, out, 0)
  else if a.mode = CFB1 ∨ a.mode = CFB2 ∨ a.mode = CFB4 then
    let bytes := a.mode - CFB1 + 1
    let out := xorFirst bytes buff (ecbEncrypt a a.f)
    ({ a with f := a.f.drop bytes ++ out.take bytes }, out, fellOff bytes a.f)
  else if a.mode = OFB1 ∨ a.mode = OFB2 ∨ a.mode = OFB4 ∨ a.mode = OFB8 ∨ a.mode = OFB16 then
    let bytes := a.mode - OFB1 + 1
    let st := ecbEncrypt a a.f
    ({ a with f := st }, xorFirst bytes buff st, 0)
  else if a.mode = CTR1 ∨ a.mode = CTR2 ∨ a.mode = CTR4 ∨ a.mode = CTR8 ∨ a.mode = CTR16 then
    let bytes := a.mode - CTR1 + 1
    let st := ecbEncrypt a a.f
    ({ a with f := increment a.f }, xorFirst bytes buff st, 0)
  else (a, buff, 0)

/-- `decrypt` (aes.rs:646-722) -/
def decrypt (a : AES) (buff : List Byte) : AES × List Byte × BitVec 32 :=
  if a.mode = ECB then (a, ecbDecrypt a buff, 0)
  else if a.mode = CBC then
    ({ a with f := buff }, List.zipWith (· ^^^ ·) (ecbDecrypt a buff) a.f, 0)
  else if a.mode = CFB1 ∨ a.mode = CFB2 ∨ a.mode = CFB4 then
    let bytes := a.mode - CFB1 + 1
    let st := ecbEncrypt a a.f
    ({ a with f := a.f.drop bytes ++ buff.take bytes }, xorFirst bytes buff st, fellOff bytes a.f)
  else if a.mode = OFB1 ∨ a.mode = OFB2 ∨ a.mode = OFB4 ∨ a.mode = OFB8 ∨ a.mode = OFB16 then
    let bytes := a.mode - OFB1 + 1
    let st := ecbEncrypt a a.f
    ({ a with f := st }, xorFirst bytes buff st, 0)
  else if a.mode = CTR1 ∨ a.mode = CTR2 ∨ a.mode = CTR4 ∨ a.mode = CTR8 ∨ a.mode = CTR16 then
    let bytes := a.mode - CTR1 + 1
    let st := ecbEncrypt a a.f
    ({ a with f := increment a.f }, xorFirst bytes buff st, 0)
  else (a, buff, 0)

/-- `end` (aes.rs:725-734) -/
def finish (a : AES) : AES :=
  { a with
    fkey := List.replicate (4 * (a.nr + 1)) 0 ++ a.fkey.drop (4 * (a.nr + 1))
    rkey := List.replicate (4 * (a.nr + 1)) 0 ++ a.rkey.drop (4 * (a.nr + 1))
    f := List.replicate 16 0 }

end Verif.Aes
