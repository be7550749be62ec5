import Verif.Pair.Model
import Verif.Tower.Model12
/-
Exponentiation in `fp12.rs` and the final exponentiation of `pair.rs`.
-/
namespace Verif.Gt
open Verif.Big Verif.Fp Verif.Tower Verif.Rom Verif.Ecp2 Verif.Pair

variable {C : Nat}

/-- `FP2::cmove` (fp2.rs:115-118) -/
def cmove2 (x y : Fp2 C) (d : Nat) : Fp2 C := ⟨Fp.cmove x.a y.a d, Fp.cmove x.b y.b d⟩
/-- `FP4::cmove` (fp4.rs:89-92) -/
def cmove4 (x y : Fp4 C) (d : Nat) : Fp4 C := ⟨cmove2 x.a y.a d, cmove2 x.b y.b d⟩
/-- `FP12::cmove` (fp12.rs:119-126); the tag is a `usize` word, `u = !(d - 1)` -/
def cmove12 (x y : Fp12 C) (d : Nat) : Fp12 C :=
  let u : BitVec 64 := ~~~(BitVec.ofNat 64 d - 1)
  ⟨cmove4 x.a y.a d, cmove4 x.b y.b d, cmove4 x.c y.c d, (BitVec.ofNat 64 x.stype ^^^ ((BitVec.ofNat 64 x.stype ^^^ BitVec.ofNat 64 y.stype) &&& u)).toNat⟩

/-- the operations `FP12::pow4` uses: `usqr`, `mul`, `conj`, `cmove` -/
def ops (P : Params C) : Ecp.PtOps (Fp12 C) := ⟨Fp12.usqr P, Fp12.mul P, Fp12.conj P, cmove12⟩

/-- one round of `FP12::pow` (fp12.rs:951-961): `w` and the base `r`, which `conj` rewrites twice for a digit `-1` -/
def powStep (P : Params C) (e1 e3 : Limbs C) (s : Fp12 C × Fp12 C) (i : Nat) : Fp12 C × Fp12 C :=
  let w := Fp12.usqr P s.1
  let bt := bit P.b e3 i - bit P.b e1 i
  let s1 := if bt = 1 then (Fp12.mul P w s.2, s.2) else (w, s.2)
  if bt = -1 then
    let r := Fp12.conj P s1.2
    (Fp12.mul P s1.1 r, Fp12.conj P r)
  else s1

/-- the rounds `i = k, …, 1` -/
def powLoop (P : Params C) (e1 e3 : Limbs C) : Nat → Fp12 C × Fp12 C → Fp12 C × Fp12 C
  | 0, s => s
  | k + 1, s => powLoop P e1 e3 k (powStep P e1 e3 s (k + 1))

/-- `FP12::pow` (fp12.rs:939-965). `none` is the underflow of `nb - 1` when the exponent is 0. -/
def pow (P : Params C) (x : Fp12 C) (e : Limbs C) : Option (Fp12 C) :=
  let r := Fp12.norm P x
  let e1 := Big.norm P.b e
  let e3 := Big.norm P.b (Big.pmul P.b e1 3).1
  let nb := nbits P.b e3
  if nb = 0 then none
  else some (Fp12.reduce P (powLoop P e1 e3 (nb - 2) (r, r)).1)

/-- loop of `FP12::pinpow` (fp12.rs:971-976): rounds `i = k - 1, …, 0` on the two registers -/
def pinLoop (P : Params C) (e : BitVec 32) : Nat → Fp12 C × Fp12 C → Fp12 C × Fp12 C
  | 0, r => r
  | k + 1, r =>
    if (e.sshiftRight k &&& 1) = 0 then pinLoop P e k (Fp12.usqr P r.1, Fp12.mul P r.2 r.1)
    else pinLoop P e k (Fp12.mul P r.1 r.2, Fp12.usqr P r.2)

/-- `FP12::pinpow` (fp12.rs:968-978) for `bts` between 0 and 32 -/
def pinpow (P : Params C) (x : Fp12 C) (e : BitVec 32) (bts : Nat) : Fp12 C := (pinLoop P e bts (Fp12.newInt P 1, x)).1

/-- `FP12::pow4` (fp12.rs:1020-1118); `none` is the panic when the digit arrays (of length `CT`) are too short. The table, the recoding and the
selection are those of `ECP2::mul4` (`table4`, `signs`, `recode4`, `selector`), the final correction is not. -/
def pow4 (P : Params C) (q0 q1 q2 q3 : Fp12 C) (u0 u1 u2 u3 : Limbs C) : Option (Fp12 C) :=
  let o := ops P
  let b := P.b
  let ct := 1 + P.n * b
  let T := Ecp.table4 o q0 q1 q2 q3
  let t0 := norm b u0
  let t1 := norm b u1
  let t2 := norm b u2
  let t3 := norm b u3
  let pb := 1 - parity t0
  let t0 := norm b (inc b t0 pb)
  let mt := Big.or (Big.or (Big.or (Big.or (zero C P.n) t0) t1) t2) t3
  let nb := 1 + nbits b mt
  if ct < nb then none
  else
    match (Ecp.recode4 b (Ecp.signs b (nb - 1) t0) t1 t2 t3).reverse with
    | [] => none
    | d :: ds =>
      let p := Ecp.selector o (Fp12.zero P) T (BitVec.ofInt 32 d)
      let pr := ds.foldl
        (fun (s : Fp12 C × Fp12 C) w =>
          let r := Ecp.selector o s.2 T (BitVec.ofInt 32 w)
          (Fp12.mul P (Fp12.usqr P s.1) r, r)) (p, T.getD 3 (Fp12.zero P))
      some (Fp12.reduce P (cmove12 pr.1 (Fp12.mul P (Fp12.conj P q0) pr.1) pb.toNat))

/-- the constant `f` of `fexp` and `gtpow` (pair.rs:404, 689) -/
def frobF (K : GlsRom C) : Fp2 C := Fp2.newBigs K.pair.rom.P K.pair.fra K.pair.frb

/-- `conj` under a condition -/
def conjIf (P : Params C) (c : Bool) (x : Fp12 C) : Fp12 C := if c then Fp12.conj P x else x

/-- easy part of `fexp` (pair.rs:406-417) -/
def easy (P : Params C) (f : Fp2 C) (m : Fp12 C) : Fp12 C :=
  let lv := Fp12.inverse P m
  let r := Fp12.conj P m
  let r := Fp12.mul P r lv
  let lv := r
  let r := Fp12.frob P r f
  let r := Fp12.frob P r f
  Fp12.mul P r lv

/-- hard part of `fexp` on BN curves (pair.rs:424-475); `pos` is `SIGN_OF_X == PositiveX` -/
def hardBn (P : Params C) (f : Fp2 C) (x : Limbs C) (pos : Bool) (r : Fp12 C) : Option (Fp12 C) :=
  let lv := Fp12.frob P r f
  let x0 := Fp12.frob P lv f
  let lv := Fp12.mul P lv r
  let x0 := Fp12.mul P x0 lv
  let x0 := Fp12.frob P x0 f
  let x1 := Fp12.conj P r
  (pow P r x).bind fun x4 =>
  let x4 := conjIf P pos x4
  let x3 := Fp12.frob P x4 f
  (pow P x4 x).bind fun x2 =>
  let x2 := conjIf P pos x2
  let x5 := Fp12.conj P x2
  (pow P x2 x).bind fun lv =>
  let lv := conjIf P pos lv
  let x2 := Fp12.frob P x2 f
  let r := Fp12.conj P x2
  let x4 := Fp12.mul P x4 r
  let x2 := Fp12.frob P x2 f
  let r := Fp12.frob P lv f
  let lv := Fp12.mul P lv r
  let lv := Fp12.usqr P lv
  let lv := Fp12.mul P lv x4
  let lv := Fp12.mul P lv x5
  let r := Fp12.mul P x3 x5
  let r := Fp12.mul P r lv
  let lv := Fp12.mul P lv x2
  let r := Fp12.usqr P r
  let r := Fp12.mul P r lv
  let r := Fp12.usqr P r
  let lv := Fp12.mul P r x1
  let r := Fp12.mul P r x0
  let lv := Fp12.usqr P lv
  let r := Fp12.mul P r lv
  some (Fp12.reduce P r)

/-- hard part of `fexp` on BLS curves (pair.rs:479-529); `neg` is `SIGN_OF_X == NegativeX` -/
def hardBls (P : Params C) (f : Fp2 C) (x : Limbs C) (neg : Bool) (r : Fp12 C) : Option (Fp12 C) :=
  let y0 := Fp12.usqr P r
  (pow P y0 x).bind fun y1 =>
  let y1 := conjIf P neg y1
  let xh := fshr P.b 1 x
  (pow P y1 xh).bind fun y2 =>
  let y2 := conjIf P neg y2
  let x := fshl P.b 1 xh
  let y3 := Fp12.conj P r
  let y1 := Fp12.mul P y1 y3
  let y1 := Fp12.conj P y1
  let y1 := Fp12.mul P y1 y2
  (pow P y1 x).bind fun y2 =>
  let y2 := conjIf P neg y2
  (pow P y2 x).bind fun y3 =>
  let y3 := conjIf P neg y3
  let y1 := Fp12.conj P y1
  let y3 := Fp12.mul P y3 y1
  let y1 := Fp12.conj P y1
  let y1 := Fp12.frob P y1 f
  let y1 := Fp12.frob P y1 f
  let y1 := Fp12.frob P y1 f
  let y2 := Fp12.frob P y2 f
  let y2 := Fp12.frob P y2 f
  let y1 := Fp12.mul P y1 y2
  (pow P y3 x).bind fun y2 =>
  let y2 := conjIf P neg y2
  let y2 := Fp12.mul P y2 y0
  let y2 := Fp12.mul P y2 r
  let y1 := Fp12.mul P y1 y2
  let y2 := y3
  let y2 := Fp12.frob P y2 f
  let y1 := Fp12.mul P y1 y2
  some (Fp12.reduce P y1)

/-- `fexp` (pair.rs:403-533) -/
def fexp (K : GlsRom C) (m : Fp12 C) : Option (Fp12 C) :=
  let P := K.pair.rom.P
  let f := frobF K
  let r := easy P f m
  if K.bn then hardBn P f K.pair.bnx (!K.pair.negx) r else hardBls P f K.pair.bnx K.pair.negx r

/-- `gtpow` (pair.rs:686-712); `USE_GS_GT` is true for every curve -/
def gtpow (K : GlsRom C) (d : Fp12 C) (e : Limbs C) : Option (Fp12 C) :=
  let P := K.pair.rom.P
  let f := frobF K
  (gs K e).bind fun u =>
  let g1 := Fp12.frob P d f
  let g2 := Fp12.frob P g1 f
  let g3 := Fp12.frob P g2 f
  (u.mapM (shorter K)).bind fun
    | [u0, u1, u2, u3] => pow4 P (conjIf P u0.2 d) (conjIf P u1.2 g1) (conjIf P u2.2 g2) (conjIf P u3.2 g3) u0.1 u1.1 u2.1 u3.1
    | _ => none

end Verif.Gt
