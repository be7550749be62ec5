import Verif.Nhs.Roots
import Verif.Sha3.Model
import Verif.Spec.Rand
/-
Model of `src/nhs.rs` (New Hope key exchange).  `i32` is `BitVec 32`, `u64` is `BitVec 64`; an array of 1024
words is the function from its indices (`Nhs.ntt_frame`, `Nhs.intt_frame` show that the in-place transforms never
write outside 0..1023); byte arrays are lists of exactly the bytes the code writes.  Loops that fill an array
element by element from other arrays are written as the function computing element `p`.
The random source is a parameter: `next` is `RAND::getbyte` in the program.
-/
namespace Verif.Nhs

abbrev Byte := BitVec 8
abbrev I32 := BitVec 32
abbrev Poly := Nat → I32

/-- `PRIME` (nhs.rs:26) -/
def PRIME : I32 := 0x3001
/-- `ND` (nhs.rs:28) -/
def ND : BitVec 32 := 0xF7002FFF
/-- `ONE` (nhs.rs:29) -/
def ONE : I32 := 0x2AC8
/-- `R2MODP` (nhs.rs:30) -/
def R2MODP : BitVec 64 := 0x1620
/-- `DEGREE` (nhs.rs:32) -/
def DEGREE : Nat := 1024
/-- `INV` (nhs.rs:35) -/
def INV : I32 := 0xeab
/-- `INVPR` (nhs.rs:36) -/
def INVPR : I32 := 0x2c2a

/-- `round` (nhs.rs:214-216); `/` truncates towards zero -/
def round (a b : I32) : I32 := (a + b.sdiv 2).sdiv b

/-- `nabs` (nhs.rs:219-222) -/
def nabs (x : I32) : I32 :=
  let mask := x.sshiftRight 31
  (x + mask) ^^^ mask

/-- `redc` (nhs.rs:226-229) -/
def redc (t : BitVec 64) : I32 :=
  let m : BitVec 32 := t.setWidth 32 * ND
  ((m.setWidth 64 * PRIME.signExtend 64 + t) >>> 32).setWidth 32

/-- `nres` (nhs.rs:231-233); `x as u64` sign-extends -/
def nres (x : I32) : I32 := redc (x.signExtend 64 * R2MODP)

/-- `modmul` (nhs.rs:235-237) -/
def modmul (a b : I32) : I32 := redc (a.signExtend 64 * b.signExtend 64)

/-- write one array element -/
def put (x : Poly) (j : Nat) (v : I32) : Poly := fun p => if p = j then v else x p

/-- one pass of the innermost loop of `ntt` (nhs.rs:253-258) -/
def ctStep (s : I32) (t : Nat) (x : Poly) (j : Nat) : Poly :=
  let u := x j
  let v := modmul (x (j + t)) s
  let x := put x j (u + v)
  put x (j + t) (u + 2 * PRIME - v)

/-- one pass of the `while` loop of `ntt` (nhs.rs:249-262); `k` is the running offset -/
def ctLayer (m t : Nat) (x : Poly) : Poly :=
  ((List.range m).foldl (fun (st : Poly × Nat) i =>
    let s := BitVec.ofNat 32 (ROOTS.getD (m + i) 0)
    ((List.range t).foldl (fun x j => ctStep s t x (st.2 + j)) st.1, st.2 + 2 * t)) (x, 0)).1

/-- the `while` loop of `ntt` (nhs.rs:248-264) -/
def nttLoop : Nat → Nat → Nat → Poly → Poly
  | 0, _, _, x => x
  | f + 1, m, t, x => if m < DEGREE then nttLoop f (m * 2) (t / 2) (ctLayer m t x) else x

/-- conversion to Montgomery form at the head of `ntt` (nhs.rs:245-247) -/
def toMont (x : Poly) : Poly := fun p => if p < DEGREE then nres (x p) else x p

/-- `ntt` (nhs.rs:240-265).  The `while` loop doubles `m` each time, so `DEGREE` passes are never used up. -/
def ntt (x : Poly) : Poly := nttLoop DEGREE 1 (DEGREE / 2) (toMont x)

/-- one pass of the innermost loop of `intt` (nhs.rs:276-282) -/
def gsStep (s : I32) (t : Nat) (x : Poly) (j : Nat) : Poly :=
  let u := x j
  let v := x (j + t)
  let x := put x j (u + v)
  let w := u + BitVec.ofNat 32 DEGREE * PRIME - v
  put x (j + t) (modmul w s)

/-- one pass of the `while` loop of `intt` (nhs.rs:272-287) -/
def gsLayer (m t : Nat) (x : Poly) : Poly :=
  ((List.range m).foldl (fun (st : Poly × Nat) i =>
    let s := BitVec.ofNat 32 (IROOTS.getD (m + i) 0)
    ((List.range t).foldl (fun x j => gsStep s t x (st.2 + j)) st.1, st.2 + 2 * t)) (x, 0)).1

/-- the `while` loop of `intt` (nhs.rs:272-287) -/
def inttLoop : Nat → Nat → Nat → Poly → Poly
  | 0, _, _, x => x
  | f + 1, m, t, x => if m > 1 then inttLoop f (m / 2) (t * 2) (gsLayer m t x) else x

/-- one pass of the last iteration of `intt` (nhs.rs:291-297) -/
def lastStep (t : Nat) (x : Poly) (j : Nat) : Poly :=
  let u := x j
  let v := x (j + t)
  let w := u + BitVec.ofNat 32 DEGREE * PRIME - v
  let x := put x (j + t) (modmul w INVPR)
  put x j (modmul (u + v) INV)

/-- leaving Montgomery form (nhs.rs:299-303): `redc`, then subtract `q` and add it back if that went negative -/
def fromMont (x : I32) : I32 :=
  let y := redc (x.signExtend 64)
  let y := y - PRIME
  y + (y.sshiftRight 31 &&& PRIME)

/-- `intt` (nhs.rs:268-304) -/
def intt (x : Poly) : Poly :=
  let x := inttLoop DEGREE (DEGREE / 2) 1 x
  let t := DEGREE / 2
  let x := (List.range t).foldl (lastStep t) x
  fun p => if p < DEGREE then fromMont (x p) else x p

/-- `encode` (nhs.rs:308-325): bit `l` of `key[j]` goes to positions `8j+l` plus 0, 256, 512, 768 -/
def encode (key : List Byte) : Poly := fun p =>
  let i := p % 256
  let kj := key.getD (i / 8) 0 >>> (i % 8)
  let b : I32 := (kj &&& 1).setWidth 32
  b * PRIME.sdiv 2

/-- the decision for position `i` in `decode` (nhs.rs:337-342) -/
def decodeBit (poly : Poly) (i : Nat) : I32 :=
  let q2 := PRIME.sdiv 2
  let t := nabs (poly i - q2) + nabs (poly (i + 256) - q2) + nabs (poly (i + 512) - q2) + nabs (poly (i + 768) - q2)
  let b := t - PRIME
  b.sshiftRight 31 &&& 1

/-- `decode` (nhs.rs:327-348) -/
def decode (poly : Poly) : List Byte :=
  (List.range 32).map fun j =>
    (List.range 8).foldl (fun kj l => (kj >>> 1) + (decodeBit poly (8 * j + l) <<< 7).setWidth 8) 0

/-- the number read from four hash bytes in `parse` (nhs.rs:362-369) -/
def parseWord (h : List Byte) (j : Nat) : I32 :=
  let n : I32 := (h.getD j 0 &&& 0x7f).setWidth 32
  let n := n <<< 8
  let n := n + (h.getD (j + 1) 0).setWidth 32
  let n := n <<< 8
  let n := n + (h.getD (j + 2) 0).setWidth 32
  let n := n <<< 8
  n + (h.getD (j + 3) 0).setWidth 32

/-- `parse` (nhs.rs:352-373) -/
def parse (seed : List Byte) : Poly :=
  let sh := (seed.take 32).foldl Sha3.process (Sha3.new 16)
  let hash := (Sha3.shake sh (4 * DEGREE)).1
  fun i => nres (parseWord hash (4 * i))

/-- one pass of the loop of `nhs_pack` (nhs.rs:382-393) -/
def pack4 (a b c d : I32) : List Byte := [
  (a &&& 0xff).setWidth 8,
  ((a.sshiftRight 8 ||| b <<< 6) &&& 0xff).setWidth 8,
  (b.sshiftRight 2 &&& 0xff).setWidth 8,
  ((b.sshiftRight 10 ||| c <<< 4) &&& 0xff).setWidth 8,
  (c.sshiftRight 4 &&& 0xff).setWidth 8,
  ((c.sshiftRight 12 ||| d <<< 2) &&& 0xff).setWidth 8,
  (d.sshiftRight 6).setWidth 8]

/-- `nhs_pack` (nhs.rs:378-396) -/
def pack (poly : Poly) : List Byte :=
  (List.range 256).flatMap fun i => pack4 (poly (4 * i)) (poly (4 * i + 1)) (poly (4 * i + 2)) (poly (4 * i + 3))

/-- one pass of the loop of `nhs_unpack` (nhs.rs:402-415) -/
def unpack4 (array : List Byte) (j : Nat) : I32 × I32 × I32 × I32 :=
  let a : I32 := (array.getD j 0).setWidth 32
  let b : I32 := (array.getD (j + 1) 0).setWidth 32
  let c : I32 := (array.getD (j + 2) 0).setWidth 32
  let d : I32 := (array.getD (j + 3) 0).setWidth 32
  let e : I32 := (array.getD (j + 4) 0).setWidth 32
  let f : I32 := (array.getD (j + 5) 0).setWidth 32
  let g : I32 := (array.getD (j + 6) 0).setWidth 32
  (a ||| (b &&& 0x3f) <<< 8,
   b.sshiftRight 6 ||| c <<< 2 ||| (d &&& 0xf) <<< 10,
   d.sshiftRight 4 ||| e <<< 4 ||| (f &&& 3) <<< 12,
   f.sshiftRight 2 ||| g <<< 6)

/-- `nhs_unpack` (nhs.rs:398-416) -/
def unpack (array : List Byte) : Poly := fun p =>
  let r := unpack4 array (7 * (p / 4))
  if p % 4 = 0 then r.1 else if p % 4 = 1 then r.2.1 else if p % 4 = 2 then r.2.2.1 else r.2.2.2

/-- the three-bit value of a coefficient in `compress` (nhs.rs:426) -/
def comp3 (x : I32) : I32 := round (x * 8) PRIME &&& 7

/-- the column of eight coefficients starting at `8i` in `compress` (nhs.rs:425-429) -/
def compCol (poly : Poly) (i : Nat) : I32 :=
  (List.range 8).foldl (fun col l => (col <<< 3) + comp3 (poly (8 * i + l))) 0

/-- `compress` (nhs.rs:420-436) -/
def compress (poly : Poly) : List Byte :=
  (List.range 128).flatMap fun i =>
    let col := compCol poly i
    [(col &&& 0xff).setWidth 8, (col.sshiftRight 8 &&& 0xff).setWidth 8, (col.sshiftRight 16 &&& 0xff).setWidth 8]

/-- the column read back from three bytes in `decompress` (nhs.rs:442-444) -/
def decompCol (array : List Byte) (j : Nat) : I32 :=
  let col : I32 := (array.getD (j + 2) 0).setWidth 32
  let col := (col <<< 8) + (array.getD (j + 1) 0).setWidth 32
  (col <<< 8) + (array.getD j 0).setWidth 32

/-- `decompress` (nhs.rs:438-453); the inner loop has shifted `col` by three bits `p % 8` times -/
def decompress (array : List Byte) : Poly := fun p =>
  let col := (decompCol array (3 * (p / 8))) <<< (3 * (p % 8))
  let b := (col &&& 0xe00000).sshiftRight 21
  round (b * PRIME) 8

/-- one coefficient of `error` (nhs.rs:459-467) from the four bytes drawn for it -/
def errorCoef (b0 b1 b2 b3 : Byte) : I32 :=
  let n1 : I32 := b0.setWidth 32 + (b1.setWidth 32 : I32) <<< 8
  let n2 : I32 := b2.setWidth 32 + (b3.setWidth 32 : I32) <<< 8
  let st := (List.range 16).foldl (fun (st : I32 × I32 × I32) _ =>
    (st.1 + ((st.2.1 &&& 1) - (st.2.2 &&& 1)), st.2.1.sshiftRight 1, st.2.2.sshiftRight 1)) (0, n1, n2)
  st.1 + PRIME

section
variable {σ : Type} (next : σ → Byte × σ)

/-- the loop of `error` (nhs.rs:458-468) -/
def errorLoop : Nat → σ → List I32 × σ
  | 0, s => ([], s)
  | n + 1, s =>
    let (b0, s) := next s
    let (b1, s) := next s
    let (b2, s) := next s
    let (b3, s) := next s
    let r := errorLoop n s
    (errorCoef b0 b1 b2 b3 :: r.1, r.2)

/-- `error` (nhs.rs:457-469) -/
def error (s : σ) : Poly × σ :=
  let r := errorLoop next DEGREE s
  (fun p => r.1.getD p 0, r.2)

/-- `n` bytes from the generator (nhs.rs:527-529, 594-596) -/
def getbytes : Nat → σ → List Byte × σ
  | 0, s => ([], s)
  | n + 1, s =>
    let (b, s) := next s
    let r := getbytes n s
    (b :: r.1, r.2)
end

/-- `redc_it` (nhs.rs:471-475) -/
def redcIt (p : Poly) : Poly := fun i => redc ((p i).signExtend 64)
/-- `nres_it` (nhs.rs:477-481) -/
def nresIt (p : Poly) : Poly := fun i => nres (p i)
/-- `poly_mul` (nhs.rs:483-487) -/
def polyMul (p1 p3 : Poly) : Poly := fun i => modmul (p1 i) (p3 i)
/-- `poly_add` (nhs.rs:489-493) -/
def polyAdd (p1 p3 : Poly) : Poly := fun i => p1 i + p3 i
/-- `poly_rsub` (nhs.rs:495-499) -/
def polyRsub (p1 p2 : Poly) : Poly := fun i => p2 i + PRIME - p1 i
/-- the body of `poly_soft_reduce` (nhs.rs:504-505) -/
def softReduce (x : I32) : I32 :=
  let e := x - PRIME
  e + (e.sshiftRight 31 &&& PRIME)
/-- `poly_soft_reduce` (nhs.rs:502-507) -/
def polySoftReduce (poly : Poly) : Poly := fun i => softReduce (poly i)
/-- the body of `poly_hard_reduce` (nhs.rs:512-514) -/
def hardReduce (x : I32) : I32 :=
  let e := modmul x ONE
  let e := e - PRIME
  e + (e.sshiftRight 31 &&& PRIME)
/-- `poly_hard_reduce` (nhs.rs:510-516) -/
def polyHardReduce (poly : Poly) : Poly := fun i => hardReduce (poly i)

/-- SHA3-256 of a 32-byte key, as called in nhs.rs:598-601, 619-623, 673-676 -/
def hashKey (key : List Byte) : List Byte :=
  (Sha3.hash ((key.take 32).foldl Sha3.process (Sha3.new 32))).1

section
variable {σ : Type} (next : σ → Byte × σ)

/-- `server_1` (nhs.rs:520-559): the message `sb`, the secret `ss` and the generator afterwards -/
def server1 (rng : σ) : List Byte × List Byte × σ :=
  let (seed, rng) := getbytes next 32 rng
  let b := parse seed
  let (e, rng) := error next rng
  let (s, rng) := error next rng
  let s := ntt s
  let e := ntt e
  let b := polyMul b s
  let b := polyAdd b e
  let b := polyHardReduce b
  let b := redcIt b
  let array := pack b
  let sb := seed ++ array
  let s := polyHardReduce s
  (sb, pack s, rng)

/-- `client` (nhs.rs:561-637): the message `uc`, the key and the generator afterwards -/
def client (rng : σ) (sb : List Byte) : List Byte × List Byte × σ :=
  let (sd, rng) := error next rng
  let (ed, rng) := error next rng
  let sd := ntt sd
  let ed := ntt ed
  let seed := sb.take 32
  let array := sb.drop 32
  let u := parse seed
  let u := polyMul u sd
  let u := polyAdd u ed
  let u := polyHardReduce u
  let (key, rng) := getbytes next 32 rng
  let key := hashKey key
  let k := encode key
  let c := unpack array
  let c := nresIt c
  let c := polyMul c sd
  let c := intt c
  let (ed, rng) := error next rng
  let c := polyAdd c ed
  let c := polyAdd c k
  let cc := compress c
  let key := hashKey key
  let u := redcIt u
  (pack u ++ cc, key, rng)
end

/-- `server_2` (nhs.rs:639-681): the key -/
def server2 (ss uc : List Byte) : List Byte :=
  let array := uc.take 1792
  let k := unpack array
  let k := nresIt k
  let cc := uc.drop 1792
  let c := decompress cc
  let s := unpack ss
  let k := polyMul k s
  let k := intt k
  let k := polyRsub k c
  let k := polySoftReduce k
  let key := decode k
  hashKey key

end Verif.Nhs
