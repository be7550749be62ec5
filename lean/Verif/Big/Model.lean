/-
Model of `src/big.rs` and `src/dbig.rs`.

A Rust `Chunk` (i32 or i64, `src/arch/arch32.rs`, `src/arch/arch64.rs`) is a `BitVec C`, a `DChunk`
(i64 or i128) is a `BitVec (2*C)`; arithmetic is wrapping two's complement (release mode).  A limb
array `[Chunk; NLEN]` or `[Chunk; DNLEN]` is a list; `b` is `BASEBITS`.  The definitions are generic
in the word size `C`, in `b` and in the number of limbs, so they cover every curve and both word
sizes.  In-place loops whose every step reads only cells not yet written are written as one pass.
Loops whose trip count depends on data take a `fuel` argument (number of iterations allowed) and
return `none` when it runs out: "the Rust loop terminates" is "some fuel gives `some`", and "diverges"
is "every fuel gives `none`".
-/
namespace Verif.Big

/-- limb arrays (`Big.w`, `DBig.w`) -/
abbrev Limbs (C : Nat) := List (BitVec C)

variable {C : Nat}

/-- `BMASK = (1 << BASEBITS) - 1` (big.rs:35) -/
def bmask (C b : Nat) : BitVec C := (1#C <<< b) - 1#C

/-- index read `w[i]` -/
def at' (w : Limbs C) (i : Nat) : BitVec C := w.getD i 0

/-- `Big::new` / `zero` (big.rs:86-88, 141-145) -/
def zero (C n : Nat) : Limbs C := List.replicate n 0

/-- `Big::new_int` (big.rs:91-95): `x as Chunk` in limb 0 -/
def newInt (C n : Nat) (x : Int) : Limbs C := (zero C n).set 0 (BitVec.ofInt C x)

/-- `Big::iszilch` (big.rs:131-138) -/
def iszilch (w : Limbs C) : Bool := w.all (· == 0)

/-- `Big::isunity` (big.rs:148-158) -/
def isunity (w : Limbs C) : Bool := w.tail.all (· == 0) && at' w 0 == 1

/-- `Big::muladd` (big.rs:176-181): returns (top, bot) of `a*b+c+r` -/
def muladd (b : Nat) (x y c r : BitVec C) : BitVec C × BitVec C :=
  let prod : BitVec (2 * C) :=
    x.signExtend (2 * C) * y.signExtend (2 * C) + c.signExtend (2 * C) + r.signExtend (2 * C)
  let bot := (prod &&& (bmask C b).signExtend (2 * C)).setWidth C
  let top := (prod.sshiftRight b).setWidth C
  (top, bot)

/-- The carry loop of `Big::norm` / `DBig::norm` (big.rs:184-193, dbig.rs:151-160). -/
def normGo (b : Nat) (carry : BitVec C) : Limbs C → Limbs C
  | [] => []
  | [x] => [x + carry]
  | x :: xs => let d := x + carry
    (d &&& bmask C b) :: normGo b (d.sshiftRight b) xs

/-- `Big::norm`, `DBig::norm` -/
def norm (b : Nat) (w : Limbs C) : Limbs C := normGo b 0 w

/-- The value returned by `Big::norm` (big.rs:192): excess of the top limb;
`MODBYTES` = `modbytes`. -/
def normExcess (b modbytes : Nat) (w : Limbs C) : BitVec C :=
  ((norm b w).getLastD 0).sshiftRight ((8 * modbytes) % b)

/-- `Big::cswap` (big.rs:196-204) -/
def cswap (x y : Limbs C) (d : Int) : Limbs C × Limbs C :=
  let c := ~~~(BitVec.ofInt C d - 1)
  (List.zipWith (fun u v => u ^^^ (c &&& (u ^^^ v))) x y,
   List.zipWith (fun u v => v ^^^ (c &&& (u ^^^ v))) x y)

/-- `Big::cmove`, `DBig::cmove` (big.rs:206-211, dbig.rs:107-112): `b = -d as Chunk` -/
def cmove (x g : Limbs C) (d : Int) : Limbs C :=
  let m := BitVec.ofInt C (-d)
  List.zipWith (fun u v => u ^^^ ((u ^^^ v) &&& m)) x g

/-- `Big::fshr` (big.rs:214-222), new limbs -/
def fshr (b k : Nat) : Limbs C → Limbs C
  | [] => []
  | [x] => [x.sshiftRight k]
  | x :: y :: r => (x.sshiftRight k ||| ((y <<< (b - k)) &&& bmask C b)) :: fshr b k (y :: r)

/-- `Big::fshr` (big.rs:216, 221), returned bits -/
def fshrOut (k : Nat) (w : Limbs C) : BitVec C := at' w 0 &&& bmask C k

/-- limbs above the lowest in `Big::fshl` (big.rs:240-243); `prev` is the limb below -/
def fshlGo (b n : Nat) (prev : BitVec C) : Limbs C → Limbs C
  | [] => []
  | [x] => [(x <<< n) ||| prev.sshiftRight (b - n)]
  | x :: xs => (((x <<< n) &&& bmask C b) ||| prev.sshiftRight (b - n)) :: fshlGo b n x xs

/-- `Big::fshl` (big.rs:238-247), `NLEN ≥ 2` -/
def fshl (b n : Nat) : Limbs C → Limbs C
  | [] => []
  | x :: xs => ((x <<< n) &&& bmask C b) :: fshlGo b n x xs

/-- `Big::shr`, `DBig::shr` (big.rs:225-235, dbig.rs:84-95), for `k < BASEBITS * NLEN`
(larger `k` is an index panic, see `shrPanics`). -/
def shr (b k : Nat) (w : Limbs C) : Limbs C :=
  let n := k % b
  let m := k / b
  fshr b n (w.drop m) ++ List.replicate m 0

/-- The index expression `NLEN - m - 1` of `shr`/`shl` underflows: panic (debug: subtraction
overflow; release: index out of bounds). -/
def shrPanics (b k : Nat) (w : Limbs C) : Bool := w.length ≤ k / b

/-- `Big::shl` (big.rs:250-265), `DBig::shl` (dbig.rs:67-81), for `k < BASEBITS * NLEN`.
Each `w[i]` is computed from old cells `w[i-m]`, `w[i-m-1]`. -/
def shl (b k : Nat) (w : Limbs C) : Limbs C :=
  let n := k % b
  let m := k / b
  (List.range w.length).map fun i =>
    if i < m then 0
    else if i = m then (at' w 0 <<< n) &&& bmask C b
    else if i = w.length - 1 then (at' w (i - m) <<< n) ||| (at' w (i - m - 1)).sshiftRight (b - n)
    else ((at' w (i - m) <<< n) &&& bmask C b) ||| (at' w (i - m - 1)).sshiftRight (b - n)

/-- `while c != 0 { c /= 2; bts += 1 }` (big.rs:280-283) – truncating division of a signed word -/
def bitCount : (fuel : Nat) → BitVec C → Nat
  | 0, _ => 0
  | f + 1, c => if c = 0 then 0 else bitCount f (c.sdiv 2) + 1

/-- `Big::nbits`, `DBig::nbits` (big.rs:268-285, dbig.rs:240-258): the loop looks for the highest
non-zero limb of the normalised number.  A word reaches 0 after at most `C` halvings. -/
def nbits (b : Nat) (w : Limbs C) : Nat :=
  let s := norm b w
  match (List.range s.length).reverse.find? (fun k => at' s k ≠ 0) with
  | none => 0
  | some k => b * k + bitCount (C + 1) (at' s k)

/-- `Big::add` / `plus` (big.rs:328-332, 349-355), `DBig::add` -/
def add (x y : Limbs C) : Limbs C := List.zipWith (· + ·) x y
/-- `Big::or` (big.rs:335-339) -/
def or (x y : Limbs C) : Limbs C := List.zipWith (· ||| ·) x y
/-- `Big::dbl` (big.rs:342-346) -/
def dbl (x : Limbs C) : Limbs C := x.map fun u => u + u
/-- `Big::inc` (big.rs:358-361) -/
def inc (b : Nat) (w : Limbs C) (x : Int) : Limbs C :=
  let w := norm b w
  w.set 0 (at' w 0 + BitVec.ofInt C x)
/-- `Big::minus` / `sub` (big.rs:364-377), `DBig::sub` -/
def sub (x y : Limbs C) : Limbs C := List.zipWith (· - ·) x y
/-- `Big::rsub` (big.rs:380-384): `x - self` -/
def rsub (self x : Limbs C) : Limbs C := List.zipWith (fun s x => x - s) self x
/-- `Big::dec` (big.rs:387-390) -/
def dec (b : Nat) (w : Limbs C) (x : Int) : Limbs C :=
  let w := norm b w
  w.set 0 (at' w 0 - BitVec.ofInt C x)
/-- `Big::imul` (big.rs:393-397) -/
def imul (w : Limbs C) (c : Int) : Limbs C := w.map fun u => u * BitVec.ofInt C c

/-- one step of the loop of `tobytearray` (big.rs:406-409), least significant byte first -/
def toBytesGo (b : Nat) : Nat → Limbs C → List (BitVec 8)
  | 0, _ => []
  | n + 1, c => (at' c 0 &&& 0xff).setWidth 8 :: toBytesGo b n (fshr b 8 c)

/-- The `MODBYTES` bytes written by `Big::tobytearray` at index `n` (big.rs:402-410). -/
def toBytes (b modbytes : Nat) (w : Limbs C) : List (BitVec 8) :=
  (toBytesGo b modbytes (norm b w)).reverse

/-- `Big::frombytearray(b, 0)` (big.rs:415-431) on an array of `n` limbs: reads at most `MODBYTES`
bytes.  With a non-zero start index the same bytes are read from that index; the length is still
taken from the whole slice (big.rs:419-424), so a short slice panics. -/
def fromBytes (b n modbytes : Nat) (bytes : List (BitVec 8)) : Limbs C :=
  (bytes.take modbytes).foldl (fun m byte =>
    let m := fshl b 8 m
    m.set 0 (at' m 0 + byte.setWidth C)) (zero C n)

/-- loop of `pmul` / `pxmul` (big.rs:448-457, 460-470): limbs and final carry -/
def pmulGo (b : Nat) (c : BitVec C) (carry : BitVec C) : Limbs C → Limbs C × BitVec C
  | [] => ([], carry)
  | x :: xs =>
    let t := muladd b x c carry 0
    let r := pmulGo b c t.1 xs
    (t.2 :: r.1, r.2)

/-- `Big::pmul` (big.rs:448-457): new limbs and returned carry -/
def pmul (b : Nat) (w : Limbs C) (c : Int) : Limbs C × BitVec C := pmulGo b (BitVec.ofInt C c) 0 w

/-- `Big::pxmul` (big.rs:460-470): a DBig (`2*NLEN` limbs) with the carry in limb `NLEN` -/
def pxmul (b : Nat) (w : Limbs C) (c : Int) : Limbs C :=
  let r := pmulGo b (BitVec.ofInt C c) 0 w
  r.1 ++ r.2 :: List.replicate (w.length - 1) 0

/-- loop of `div3` from the top limb down (big.rs:477-481); `ak/3`, `ak%3` truncate towards zero -/
def div3Go (b : Nat) : Limbs C → Limbs C × BitVec C
  | [] => ([], 0)
  | x :: xs =>
    let r := div3Go b xs
    let ak := r.2 * (1#C <<< b) + x
    (ak.sdiv 3 :: r.1, ak.srem 3)

/-- `Big::div3` (big.rs:473-483): new limbs and remainder -/
def div3 (b : Nat) (w : Limbs C) : Limbs C × BitVec C := div3Go b (norm b w)

/-- inner loop of `smul` for fixed `i` over `j` with `i + j < NLEN` (big.rs:489-496): `x = a.w[i]`,
`ys = b.w[0..]`, `cs = c.w[i..]` -/
def smulRow (b : Nat) (x carry : BitVec C) : Limbs C → Limbs C → Limbs C
  | y :: ys, c :: cs =>
    let t := muladd b x y carry c
    t.2 :: smulRow b x t.1 ys cs
  | _, cs => cs

/-- outer loop of `smul`: rows `a.w[i]`, acting on `c.w[i..]` -/
def smulGo (b : Nat) (y : Limbs C) : Limbs C → Limbs C → Limbs C
  | x :: xs, c =>
    match smulRow b x 0 y c with
    | [] => []
    | c0 :: cs => c0 :: smulGo b y xs cs
  | [], c => c

/-- `Big::smul` (big.rs:486-499) -/
def smul (b : Nat) (x y : Limbs C) : Limbs C := smulGo b y x (zero C x.length)

/-- `Big::comp`, `DBig::comp` (big.rs:502-514, dbig.rs:136-148): from the top limb down, signed. -/
def comp : Limbs C → Limbs C → Int
  | x :: xs, y :: ys =>
    let c := comp xs ys
    if c ≠ 0 then c else if x = y then 0 else if y.slt x then 1 else -1
  | _, _ => 0

/-- `==` on `Big` (big.rs:58-62) -/
def beq (x y : Limbs C) : Bool := comp x y == 0

/-- `Ord::cmp` on `Big` (big.rs:64-75), hence `<`, `<=`, … (big.rs:79-83) -/
def ord (x y : Limbs C) : Ordering :=
  let r := comp x y
  if r > 0 then .gt else if r < 0 then .lt else .eq

/-- `Big::mod2m`, `DBig::mod2m` (big.rs:517-525, dbig.rs:229-237), for `m / BASEBITS < NLEN`
(otherwise index panic) -/
def mod2m (b m : Nat) (w : Limbs C) : Limbs C :=
  let wd := m / b
  let bt := m % b
  w.take wd ++ (at' w wd &&& bmask C bt) :: List.replicate (w.length - (wd + 1)) 0

/-- `Big::invmod256` (big.rs:528-564) on an `isize` (64-bit word) -/
def invmod256 (a : BitVec 64) : BitVec 64 :=
  let t1 : BitVec 64 := 0
  let c := (a.sshiftRight 1) &&& 1
  let t1 := t1 + c
  let t1 := t1 &&& 1
  let t1 := 2 - t1
  let t1 := t1 <<< 1
  let u := t1 + 1
  -- i=2
  let b := a &&& 3
  let t1 := u * b
  let t1 := t1.sshiftRight 2
  let c := (a.sshiftRight 2) &&& 3
  let t2 := (u * c) &&& 3
  let t1 := t1 + t2
  let t1 := t1 * u
  let t1 := t1 &&& 3
  let t1 := 4 - t1
  let t1 := t1 <<< 2
  let u := u + t1
  -- i=4
  let b := a &&& 15
  let t1 := u * b
  let t1 := t1.sshiftRight 4
  let c := (a.sshiftRight 4) &&& 15
  let t2 := (u * c) &&& 15
  let t1 := t1 + t2
  let t1 := t1 * u
  let t1 := t1 &&& 15
  let t1 := 16 - t1
  let t1 := t1 <<< 4
  let u := u + t1
  u

/-- `Big::parity` (big.rs:567-569): remainder of the signed low limb -/
def parity (w : Limbs C) : Int := ((at' w 0).srem 2).toInt

/-- `Big::bit` (big.rs:572-577) -/
def bit (b : Nat) (w : Limbs C) (n : Nat) : Int :=
  if (0 : BitVec C).slt (at' w (n / b) &&& (1#C <<< (n % b))) then 1 else 0

/-- `Big::lastbits` (big.rs:580-584), returned value -/
def lastbits (b : Nat) (w : Limbs C) (n : Nat) : BitVec C := at' (norm b w) 0 &&& bmask C n

/-- sign bit `(x >> (CHUNK-1)) & 1` of the top limb used as borrow flag (big.rs:648, dbig.rs:186) -/
def topSign (w : Limbs C) : Int := (((w.getLastD 0).sshiftRight (C - 1)) &&& 1).toInt

/-! ### Reduction and division -/

/-- first loop of `rmod` / `dmod` (big.rs:633-639, dbig.rs:171-177): `m <<= 1; k += 1` until
`self < m`.  Returns `m` and `k`. -/
def upLoop (b : Nat) (x : Limbs C) : (fuel : Nat) → Limbs C → Nat → Option (Limbs C × Nat)
  | 0, _, _ => none
  | f + 1, m, k =>
    let m := fshl b 1 m
    let k := k + 1
    if comp x m < 0 then some (m, k) else upLoop b x f m k

/-- second loop of `rmod` / `dmod` (big.rs:641-652, dbig.rs:179-191) -/
def downLoop (b : Nat) : Nat → Limbs C → Limbs C → Limbs C
  | 0, _, x => x
  | k + 1, m, x =>
    let m := fshr b 1 m
    let r := norm b (sub x m)
    downLoop b k m (cmove x r (1 - topSign r))

/-- `Big::rmod` (big.rs:626-653) -/
def rmod (b fuel : Nat) (x n : Limbs C) : Option (Limbs C) :=
  let x := norm b x
  if comp x n < 0 then some x
  else (upLoop b x fuel n 0).map fun mk => downLoop b mk.2 mk.1 x

/-- first loop of `div` (big.rs:666-670): `while b >= m { e <<= 1; m <<= 1; k += 1 }` -/
def divUp (b : Nat) (x : Limbs C) : (fuel : Nat) → Limbs C → Limbs C → Nat → Option (Limbs C × Limbs C × Nat)
  | 0, _, _, _ => none
  | f + 1, e, m, k =>
    if comp x m ≥ 0 then divUp b x f (fshl b 1 e) (fshl b 1 m) (k + 1) else some (e, m, k)

/-- second loop of `div` (big.rs:672-686); state (e, m, b, self) -/
def divDown (b : Nat) : Nat → Limbs C → Limbs C → Limbs C → Limbs C → Limbs C
  | 0, _, _, _, q => q
  | k + 1, e, m, x, q =>
    let m := fshr b 1 m
    let e := fshr b 1 e
    let r := norm b (sub x m)
    let d := 1 - topSign r
    let x := cmove x r d
    let r := norm b (add q e)
    divDown b k e m x (cmove q r d)

/-- `Big::div` (big.rs:658-687) -/
def div (b fuel : Nat) (x n : Limbs C) : Option (Limbs C) :=
  let x := norm b x
  (divUp b x fuel (newInt C x.length 1) n 0).map fun emk =>
    divDown b emk.2.2 emk.1 emk.2.1 x (zero C x.length)

/-- `DBig::new_scopy` (dbig.rs:37-49): the top limb of the Big is split at `BASEBITS` -/
def newScopy (b : Nat) (x : Limbs C) : Limbs C :=
  x.dropLast ++ [x.getLastD 0 &&& bmask C b, (x.getLastD 0).sshiftRight b]
    ++ List.replicate (x.length - 1) 0

/-- `DBig::dmod` (dbig.rs:162-193); the shifts are `shl(1)` / `shr(1)`, which for a shift count below
`BASEBITS` do what `fshl(1)` / `fshr(1)` do (see `shl_one`, `shr_one`). -/
def dmod (b fuel : Nat) (d c : Limbs C) : Option (Limbs C) :=
  let d := norm b d
  let m := newScopy b c
  if comp d m < 0 then some (d.take c.length)
  else (upLoop b d fuel m 0).map fun mk => (downLoop b mk.2 mk.1 d).take c.length

/-- `DBig::div` (dbig.rs:196-226): the loops of `Big::div` with a double-length dividend and a
single-length quotient (`e`, `a`); shifts by one bit as in `dmod` -/
def ddiv (b fuel : Nat) (d c : Limbs C) : Option (Limbs C) :=
  let d := norm b d
  (divUp b d fuel (newInt C c.length 1) (newScopy b c) 0).map fun emk =>
    divDown b emk.2.2 emk.1 emk.2.1 d (zero C c.length)

/-! ### Multiplication -/

/-- widening `a.w[i] as DChunk` -/
def wide (x : BitVec C) : BitVec (2 * C) := x.signExtend (2 * C)

/-- `((a.w[i] - a.w[k - i]) as DChunk) * ((b.w[k - i] - b.w[i]) as DChunk)` -/
def crossTerm (x y : Limbs C) (k i : Nat) : BitVec (2 * C) :=
  wide (at' x i - at' x (k - i)) * wide (at' y (k - i) - at' y i)

/-- State of the column loops of `Big::mul`: digits written so far, `s`, `co`. -/
structure MulSt (C : Nat) where
  c : Limbs C
  s : BitVec (2 * C)
  co : BitVec (2 * C)

/-- one column of `Big::mul` (big.rs:853-861, 862-873): `s' ` is the updated running sum, `is` the
range of `i` -/
def mulCol (b : Nat) (x y : Limbs C) (k : Nat) (s' : BitVec (2 * C)) (is : List Nat) (st : MulSt C) : MulSt C :=
  let t := is.foldl (fun t i => t + crossTerm x y k i) (st.co + s')
  { c := st.c ++ [(t &&& wide (bmask C b)).setWidth C], s := s', co := t.sshiftRight b }

/-- `Big::mul` (big.rs:840-876): the first loop has `k in 1..NLEN`, `i in 1+k/2..=k`; the second
`k in NLEN..2*NLEN-1`, `i in 1+k/2..NLEN`. -/
def mul (b : Nat) (x y : Limbs C) : Limbs C :=
  let n := x.length
  let d := fun i => wide (at' x i) * wide (at' y i)
  let st : MulSt C := mulCol b x y 0 (d 0) [] { c := [], s := 0, co := 0 }
  let st := (List.range' 1 (n - 1)).foldl (fun st k =>
    mulCol b x y k (st.s + d k) (List.range' (1 + k / 2) (k - k / 2)) st) st
  let st := (List.range' n (n - 1)).foldl (fun st k =>
    mulCol b x y k (st.s - d (k - n)) (List.range' (1 + k / 2) (n - 1 - k / 2)) st) st
  st.c ++ [st.co.setWidth C]

/-- `t = a.w[hi] * a.w[lo]; for i in from..(j+1)/2 { t += a.w[j-i]*a.w[i] }; t += t; t += co`
(big.rs:892-897 and three more times) -/
def sqrSum (x : Limbs C) (hi lo j frm : Nat) (co : BitVec (2 * C)) : BitVec (2 * C) :=
  let t := (List.range' frm ((j + 1) / 2 - frm)).foldl
    (fun t i => t + wide (at' x (j - i)) * wide (at' x i)) (wide (at' x hi) * wide (at' x lo))
  let t := t + t
  t + co

/-- digits written so far and carry -/
structure ColSt (C : Nat) where
  c : Limbs C
  co : BitVec (2 * C)

/-- `c.w[j] = t & rm; co = t >> rb` -/
def emit (b : Nat) (st : ColSt C) (t : BitVec (2 * C)) : ColSt C :=
  { c := st.c ++ [(t &&& wide (bmask C b)).setWidth C], co := t.sshiftRight b }

/-- one iteration of the pair loops of `Big::sqr` (big.rs:891-911, 914-934): an odd column `j`, then
the even column `j+1`; `hi`/`frm` as in the respective loop -/
def sqrPair (b : Nat) (x : Limbs C) (high : Bool) (st : ColSt C) (j : Nat) : ColSt C :=
  let n := x.length
  let st := emit b st (if high then sqrSum x (n - 1) (j + 1 - n) j (j + 2 - n) st.co else sqrSum x j 0 j 1 st.co)
  let j := j + 1
  let t := if high then sqrSum x (n - 1) (j + 1 - n) j (j + 2 - n) st.co else sqrSum x j 0 j 1 st.co
  emit b st (t + wide (at' x (j / 2)) * wide (at' x (j / 2)))

/-- `Big::sqr` (big.rs:881-948), `NLEN ≥ 2`.  First loop: `j = 1, 3, ..` while `j < NLEN-1`; second
loop: from `j = NLEN + NLEN%2 - 1` in steps of 2 while `j < 2*NLEN-3`. -/
def sqr (b : Nat) (x : Limbs C) : Limbs C :=
  let n := x.length
  let st := emit b { c := [], co := 0 } (wide (at' x 0) * wide (at' x 0))
  let st := (List.range ((n - 1) / 2)).foldl (fun st i => sqrPair b x false st (1 + 2 * i)) st
  let j0 := n + n % 2 - 1
  let st := (List.range ((2 * n - 3 - j0 + 1) / 2)).foldl (fun st i => sqrPair b x true st (j0 + 2 * i)) st
  let t := wide (at' x (n - 2)) * wide (at' x (n - 1))
  let t := t + t
  let t := t + st.co
  let st := emit b st t
  let t := wide (at' x (n - 1)) * wide (at' x (n - 1)) + st.co
  let st := emit b st t
  st.c ++ [st.co.setWidth C]

/-- State of `Big::monty`: `v[0..k]`, `c`, `s`; result digits -/
structure MontySt (C : Nat) where
  v : Limbs C
  c : BitVec (2 * C)
  s : BitVec (2 * C)
  out : Limbs C

/-- `Big::monty` cross term (big.rs:972, 985) -/
def montyCross (v md : Limbs C) (k i : Nat) : BitVec (2 * C) :=
  wide (at' v (k - i) - at' v i) * wide (at' md i - at' md (k - i))

/-- `(((t & rm) as Chunk).wrapping_mul(mc)) & BMASK` -/
def montyV (b : Nat) (mc : BitVec C) (t : BitVec (2 * C)) : BitVec C :=
  ((t &&& wide (bmask C b)).setWidth C * mc) &&& bmask C b

/-- body of the first loop of `Big::monty` (big.rs:968-980) -/
def montyLow (b : Nat) (md : Limbs C) (mc : BitVec C) (d : Limbs C) (st : MontySt C) (k : Nat) : MontySt C :=
  let t := st.c + st.s + wide (at' st.v 0) * wide (at' md k)
  let t := (List.range' (1 + k / 2) (k - (1 + k / 2))).foldl (fun t i => t + montyCross st.v md k i) t
  let vk := montyV b mc t
  let t := t + wide vk * wide (at' md 0)
  { v := st.v ++ [vk], c := wide (at' d (k + 1)) + t.sshiftRight b, s := st.s + wide vk * wide (at' md k), out := [] }

/-- body of the second loop (big.rs:982-992) -/
def montyHigh (b : Nat) (md : Limbs C) (d : Limbs C) (st : MontySt C) (k : Nat) : MontySt C :=
  let n := md.length
  let t := st.c + st.s
  let t := (List.range' (1 + k / 2) (n - (1 + k / 2))).foldl (fun t i => t + montyCross st.v md k i) t
  { st with
    out := st.out ++ [(t &&& wide (bmask C b)).setWidth C]
    c := wide (at' d (k + 1)) + t.sshiftRight b
    s := st.s - wide (at' st.v (k + 1 - n)) * wide (at' md (k + 1 - n)) }

/-- `Big::monty` (big.rs:953-995).  (`dd[k]` is recomputed as `v[k]*md.w[k]`; `dd[0]` is never read
because `k+1-NLEN ≥ 1`.) -/
def monty (b : Nat) (md : Limbs C) (mc : BitVec C) (d : Limbs C) : Limbs C :=
  let n := md.length
  let t := wide (at' d 0)
  let v0 := montyV b mc t
  let t := t + wide v0 * wide (at' md 0)
  let st : MontySt C := { v := [v0], c := wide (at' d 1) + t.sshiftRight b, s := 0, out := [] }
  let st := (List.range' 1 (n - 1)).foldl (montyLow b md mc d) st
  let st := (List.range' n (n - 1)).foldl (montyHigh b md d) st
  st.out ++ [(st.c &&& wide (bmask C b)).setWidth C]

/-! ### Modular arithmetic -/

/-- `Big::modmul` (big.rs:1017-1024) -/
def modmul (b fuel : Nat) (x y m : Limbs C) : Option (Limbs C) := do
  let x ← rmod b fuel x m
  let y ← rmod b fuel y m
  dmod b fuel (mul b x y) m

/-- `Big::modsqr` (big.rs:1027-1032) -/
def modsqr (b fuel : Nat) (x m : Limbs C) : Option (Limbs C) := do
  let x ← rmod b fuel x m
  dmod b fuel (sqr b x) m

/-- `Big::modneg` (big.rs:1037-1041): `m.minus(&a)`, not normalised -/
def modneg (b fuel : Nat) (x m : Limbs C) : Option (Limbs C) := do
  let x ← rmod b fuel x m
  some (sub m x)

/-- loop of `Big::powmod` (big.rs:1053-1063); state (a, z, s); the fuel also bounds the loops inside
`modmul`, `modsqr` (`f0`) -/
def powLoop (b f0 : Nat) (m : Limbs C) : (fuel : Nat) → Limbs C → Limbs C → Limbs C → Option (Limbs C)
  | 0, _, _, _ => none
  | f + 1, a, z, s =>
    let bt := parity z
    let z := fshr b 1 z
    (if bt = 1 then modmul b f0 a s m else some a).bind fun a =>
      if iszilch z then some a
      else (modsqr b f0 s m).bind fun s => powLoop b f0 m f a z s

/-- `Big::powmod` (big.rs:1046-1065) -/
def powmod (b fuel : Nat) (x e m : Limbs C) : Option (Limbs C) :=
  powLoop b fuel m fuel (newInt C m.length 1) (norm b e) (norm b x)

/-- loop of `Big::ssn` above limb 0 (big.rs:1002-1010): limbs of `m`, of `r`; `carry` as in the code -/
def ssnGo (b : Nat) (carry : BitVec C) : Limbs C → Limbs C → Limbs C × Limbs C
  | a :: as, x :: y :: ms =>
    let m := x.sshiftRight 1 ||| ((y <<< (b - 1)) &&& bmask C b)
    let r := a - m + carry
    let t := ssnGo b (r.sshiftRight b) as (y :: ms)
    (m :: t.1, (r &&& bmask C b) :: t.2)
  | a :: _, [x] => let m := x.sshiftRight 1; ([m], [a - m + carry])
  | _, _ => ([], [])

/-- `Big::ssn` (big.rs:997-1012): returns the new `m`, `r` and the sign bit; limb 0 is the loop body
with carry 0 -/
def ssn (b : Nat) (a m : Limbs C) : Limbs C × Limbs C × Int :=
  let t := ssnGo b 0 a m
  (t.1, t.2, topSign t.2)

/-- inner loop of `Big::jacobi` (big.rs:758-761): `while x.parity() == 0 { k += 1; x.shr(1) }` -/
def jacHalve (b : Nat) : (fuel : Nat) → Limbs C → Nat → Option (Limbs C × Nat)
  | 0, _, _ => none
  | f + 1, x, k => if parity x = 0 then jacHalve b f (shr b 1 x) (k + 1) else some (x, k)

/-- outer loop of `Big::jacobi` (big.rs:752-775); state (m, x, n).  `lastbits` also normalises `n` and
`x` in place (big.rs:582). -/
def jacLoop (b f0 : Nat) (one : Limbs C) : (fuel : Nat) → Nat → Limbs C → Limbs C → Option Int
  | 0, _, _, _ => none
  | f + 1, m, x, n =>
    if comp n one > 0 then
      if iszilch x then some 0
      else
        let n8 := (lastbits b n 3).toNat
        let n := norm b n
        (jacHalve b f0 x 0).bind fun xk =>
          let x := xk.1
          let m := if xk.2 % 2 = 1 then m + (n8 * n8 - 1) / 8 else m
          let m := m + (n8 - 1) * ((lastbits b x 2).toNat - 1) / 4
          let x := norm b x
          (rmod b f0 n x).bind fun t => jacLoop b f0 one f (m % 2) t x
    else some (if m = 0 then 1 else -1)

/-- `Big::jacobi` (big.rs:740-776) -/
def jacobi (b fuel : Nat) (x p : Limbs C) : Option Int :=
  let one := newInt C p.length 1
  if parity p = 0 || iszilch x || comp p one ≤ 0 then some 0
  else (rmod b fuel (norm b x) p).bind fun x => jacLoop b fuel one fuel 0 x p

/-- inner loops of `Big::invmodp` (big.rs:790-797, 798-805) -/
def invHalve (b : Nat) (p : Limbs C) : (fuel : Nat) → Limbs C → Limbs C → Option (Limbs C × Limbs C)
  | 0, _, _ => none
  | f + 1, u, x1 =>
    if parity u = 0 then
      let u := fshr b 1 u
      let x1 := if parity x1 ≠ 0 then norm b (add x1 p) else x1
      invHalve b p f u (fshr b 1 x1)
    else some (u, x1)

/-- the coefficient update `x1 -= x2` or `x1 += p - x2` (big.rs:809-816, 820-827) -/
def invSub (b : Nat) (p x1 x2 : Limbs C) : Limbs C :=
  norm b (if comp x1 x2 ≥ 0 then sub x1 x2 else add x1 (sub p x2))

/-- main loop of `Big::invmodp` (big.rs:789-829) and the final selection (big.rs:830-834); state
(u, v, x1, x2) -/
def invLoop (b f0 : Nat) (p one : Limbs C) : (fuel : Nat) → Limbs C → Limbs C → Limbs C → Limbs C → Option (Limbs C)
  | 0, _, _, _, _ => none
  | f + 1, u, v, x1, x2 =>
    if comp u one ≠ 0 ∧ comp v one ≠ 0 then
      (invHalve b p f0 u x1).bind fun ux =>
      (invHalve b p f0 v x2).bind fun vx =>
        if comp ux.1 vx.1 ≥ 0 then
          invLoop b f0 p one f (norm b (sub ux.1 vx.1)) vx.1 (invSub b p ux.2 vx.2) vx.2
        else
          invLoop b f0 p one f ux.1 (norm b (sub vx.1 ux.1)) ux.2 (invSub b p vx.2 ux.2)
    else some (if comp u one = 0 then x1 else x2)

/-- `Big::invmodp` (big.rs:781-835) -/
def invmodp (b fuel : Nat) (x p : Limbs C) : Option (Limbs C) :=
  (rmod b fuel x p).bind fun u =>
    invLoop b fuel p (newInt C p.length 1) fuel u p (newInt C p.length 1) (zero C p.length)

/-- body of the loop of `Big::invmod2m` (big.rs:593-616) for the current `i` -/
def inv2Step (b i : Nat) (a u : Limbs C) : Limbs C :=
  let u := norm b u
  let bb := mod2m b i a
  let t1 := shr b i (smul b u bb)
  let c := mod2m b i (shr b i a)
  let t2 := mod2m b i (smul b u c)
  let t1 := norm b (add t1 t2)
  let t1 := mod2m b i (smul b t1 u)
  let t2 := shl b i (newInt C a.length 1)
  let t1 := norm b (rsub t1 t2)
  add u (shl b i t1)

/-- loop of `Big::invmod2m` (big.rs:592-617): `i = 8, 16, …` while `i < BIGBITS`; `k` bounds the number
of doublings (`i` doubles, so `BIGBITS` iterations suffice) -/
def inv2Loop (b bigbits : Nat) (a : Limbs C) : (k i : Nat) → Limbs C → Limbs C
  | 0, _, u => u
  | k + 1, i, u => if i < bigbits then inv2Loop b bigbits a k (2 * i) (inv2Step b i a u) else u

/-- `Big::invmod2m` (big.rs:587-621); `lastbits(8)` normalises `self` (big.rs:589) -/
def invmod2m (b bigbits : Nat) (a : Limbs C) : Limbs C :=
  let s := invmod256 ((lastbits b a 8).signExtend 64)
  let a := norm b a
  let u := inc b (zero C a.length) s.toInt
  let u := inv2Loop b bigbits a bigbits 8 u
  norm b (mod2m b bigbits u)

/-- the bit-by-bit loop of `random` / `randomnum` (big.rs:698-710, 722-734) on an array of limbs;
`getbyte` is `RAND::getbyte` on generator states `σ`; state (m, j, r, rng) -/
def randBits {σ : Type} (getbyte : σ → BitVec 8 × σ) (b : Nat) :
    (count : Nat) → Limbs C → (j : Nat) → (r : BitVec 8) → σ → Limbs C × σ
  | 0, m, _, _, s => (m, s)
  | k + 1, m, j, r, s =>
    let rs := if j = 0 then getbyte s else (r >>> 1, s)
    let bitv := (rs.1.setWidth C) &&& 1
    let m := shl b 1 m
    let m := m.set 0 (at' m 0 + bitv)
    randBits getbyte b k m ((j + 1) % 8) rs.1 rs.2

/-- `Big::random` (big.rs:692-712), `NLEN = n`, `MODBYTES = modbytes` -/
def random {σ : Type} (getbyte : σ → BitVec 8 × σ) (b n modbytes : Nat) (s : σ) : Limbs C × σ :=
  randBits getbyte b (8 * modbytes) (zero C n) 0 0 s

/-- `Big::randomnum` (big.rs:717-737) -/
def randomnum {σ : Type} (getbyte : σ → BitVec 8 × σ) (b fuel : Nat) (q : Limbs C) (s : σ) : Option (Limbs C) × σ :=
  let ds := randBits getbyte b (2 * nbits b q) (zero C (2 * q.length)) 0 0 s
  (dmod b fuel ds.1 q, ds.2)

/-- `DBig::split` (dbig.rs:52-64) at bit `n` (the code only uses the remainder of `n` modulo
`BASEBITS`; the caller passes `8*MODBYTES`, whose quotient is `NLEN-1`): (high half, kept low half) -/
def split (b nlen n : Nat) (w : Limbs C) : Limbs C × Limbs C :=
  let m := n % b
  let top := w.drop (nlen - 1)
  -- the loop runs from the top; cell `i` of the result combines limbs `i` and `i+1`, the topmost
  -- carry is not masked
  let hi := (List.range nlen).map fun i =>
    let carry := if i + 1 = nlen then at' top (i + 1) <<< (b - m) else (at' top (i + 1) <<< (b - m)) &&& bmask C b
    (at' top i).sshiftRight m ||| carry
  (hi, w.set (nlen - 1) (at' w (nlen - 1) &&& bmask C m))

/-- `DBig::ucopy` (dbig.rs:98-105) -/
def ucopy (x : Limbs C) : Limbs C := zero C x.length ++ x

/-- `DBig::frombytes` (dbig.rs:280-297): at most `2*MODBYTES` bytes, `shl(8)` each -/
def dfromBytes (b n modbytes : Nat) (bytes : List (BitVec 8)) : Limbs C :=
  (bytes.take (2 * modbytes)).foldl (fun m byte =>
    let m := shl b 8 m
    m.set 0 (at' m 0 + byte.setWidth C)) (zero C (2 * n))

end Verif.Big
