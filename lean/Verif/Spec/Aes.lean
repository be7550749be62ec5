/-
Independent specification of AES: FIPS-197, byte-oriented, with the tables given by their algebraic
definitions.  A state / block is a list of 16 bytes in FIPS order (byte `r + 4c` is row `r`,
column `c`); a round key is a list of 16 bytes; a key word is a list of 4 bytes.
-/
namespace Spec.Aes

abbrev Byte := BitVec 8

/-- multiplication by `x` in GF(2^8) = GF(2)[x]/(x^8+x^4+x^3+x+1)  (FIPS-197 §4.2.1) -/
def xtime (a : Byte) : Byte := (a <<< 1) ^^^ (if a.msb then 0x1b else 0)

/-- multiplication in GF(2^8): the sum of `a·x^i` over the bits `i` of `c`  (FIPS-197 §4.2) -/
def gmul (c a : Byte) : Byte := (List.range 8).foldr (fun i acc => xtime acc ^^^ (if c.getLsbD i then a else 0)) 0

/-- multiplicative inverse (0 ↦ 0): `a^254`, by `a^2·a^4·…·a^128` -/
def ginv (a : Byte) : Byte :=
  let a2 := gmul a a
  let a4 := gmul a2 a2
  let a8 := gmul a4 a4
  let a16 := gmul a8 a8
  let a32 := gmul a16 a16
  let a64 := gmul a32 a32
  let a128 := gmul a64 a64
  gmul a2 (gmul a4 (gmul a8 (gmul a16 (gmul a32 (gmul a64 a128)))))

/-- the S-box: inverse, then the affine map of FIPS-197 §5.1.1 -/
def sbox (a : Byte) : Byte :=
  let y := ginv a
  y ^^^ y.rotateLeft 1 ^^^ y.rotateLeft 2 ^^^ y.rotateLeft 3 ^^^ y.rotateLeft 4 ^^^ 0x63

/-- the inverse S-box: inverse affine map, then inverse (FIPS-197 §5.3.2) -/
def invSbox (a : Byte) : Byte := ginv (a.rotateLeft 1 ^^^ a.rotateLeft 3 ^^^ a.rotateLeft 6 ^^^ 0x05)

/-- byte `i` of a block -/
def byte (s : List Byte) (i : Nat) : Byte := s.getD i 0

def subBytes (s : List Byte) : List Byte := s.map sbox
def invSubBytes (s : List Byte) : List Byte := s.map invSbox

/-- row `r` is rotated left by `r` (FIPS-197 §5.1.2) -/
def shiftRows (s : List Byte) : List Byte := (List.range 16).map fun i => byte s ((i + 4 * (i % 4)) % 16)
def invShiftRows (s : List Byte) : List Byte := (List.range 16).map fun i => byte s ((i + 12 * (i % 4)) % 16)

/-- each column times the circulant matrix with first row `k0 k1 k2 k3` -/
def mixWith (k0 k1 k2 k3 : Byte) (s : List Byte) : List Byte :=
  (List.range 16).map fun i =>
    let c := 4 * (i / 4)
    let r := i % 4
    gmul k0 (byte s (c + r)) ^^^ gmul k1 (byte s (c + (r + 1) % 4)) ^^^ gmul k2 (byte s (c + (r + 2) % 4))
      ^^^ gmul k3 (byte s (c + (r + 3) % 4))

/-- FIPS-197 §5.1.3 and §5.3.3 -/
def mixColumns (s : List Byte) : List Byte := mixWith 2 3 1 1 s
def invMixColumns (s : List Byte) : List Byte := mixWith 0x0e 0x0b 0x0d 0x09 s

def addRoundKey (s k : List Byte) : List Byte := List.zipWith (· ^^^ ·) s k

/-- round constant `x^(i-1)`, `i ≥ 1` -/
def rcon (i : Nat) : Byte := (List.replicate (i - 1) ()).foldl (fun a _ => xtime a) 1

def subWord (w : List Byte) : List Byte := w.map sbox
def rotWord (w : List Byte) : List Byte := w.drop 1 ++ w.take 1
def xorWord (u v : List Byte) : List Byte := List.zipWith (· ^^^ ·) u v

/-- word `i` of the key schedule from the words `0 … i-1` (FIPS-197 §5.2, Figure 11) -/
def nextWord (nk : Nat) (ws : List (List Byte)) : List Byte :=
  let i := ws.length
  let temp := ws.getD (i - 1) []
  let temp :=
    if i % nk = 0 then xorWord (subWord (rotWord temp)) [rcon (i / nk), 0, 0, 0]
    else if nk > 6 ∧ i % nk = 4 then subWord temp
    else temp
  xorWord (ws.getD (i - nk) []) temp

/-- the key's own words -/
def keyWords (nk : Nat) (key : List Byte) : List (List Byte) :=
  (List.range nk).map fun i => (key.drop (4 * i)).take 4

/-- `k` more words -/
def expandBy (nk : Nat) : Nat → List (List Byte) → List (List Byte)
  | 0, ws => ws
  | k + 1, ws => expandBy nk k (ws ++ [nextWord nk ws])

/-- KeyExpansion: `4·(nr+1)` words, `nr = nk + 6` -/
def keyExpansion (nk : Nat) (key : List Byte) : List (List Byte) :=
  expandBy nk (4 * (nk + 7) - nk) (keyWords nk key)

/-- round key `r`: words `4r … 4r+3` -/
def roundKey (ws : List (List Byte)) (r : Nat) : List Byte := ((ws.drop (4 * r)).take 4).flatten

/-- Cipher (FIPS-197 Figure 5) -/
def cipher (nk : Nat) (key block : List Byte) : List Byte :=
  let nr := nk + 6
  let ws := keyExpansion nk key
  let s := addRoundKey block (roundKey ws 0)
  let s := (List.range (nr - 1)).foldl
    (fun s r => addRoundKey (mixColumns (shiftRows (subBytes s))) (roundKey ws (r + 1))) s
  addRoundKey (shiftRows (subBytes s)) (roundKey ws nr)

/-- InvCipher (FIPS-197 Figure 12) -/
def invCipher (nk : Nat) (key block : List Byte) : List Byte :=
  let nr := nk + 6
  let ws := keyExpansion nk key
  let s := addRoundKey block (roundKey ws nr)
  let s := (List.range (nr - 1)).foldl
    (fun s r => invMixColumns (addRoundKey (invSubBytes (invShiftRows s)) (roundKey ws (nr - 1 - r)))) s
  addRoundKey (invSubBytes (invShiftRows s)) (roundKey ws 0)

end Spec.Aes
