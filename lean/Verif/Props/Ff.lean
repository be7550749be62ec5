import Verif.Rsa.FfProof
import Verif.Props.Rsa
import Mathlib.Tactic.NormNum.Prime
/-
Properties of the multi-precision layer `ff.rs` and of RSA on top of it.

`FOk C b n R` (Spec/Ff.lean) describes the covered parameters: word size `C`, `b` = BASEBITS, `n` = NLEN and
`R` = 8·MODBYTES.  A number is a list of `2^k` digits; `fval` is the integer it denotes, `Canon` says that every digit is
normalised and below `2^R`.  `fuel` bounds the loops whose number of rounds depends on the data; the theorems hold for
every sufficiently large value, so the program's loops terminate with the stated result.
-/
namespace Verif.Props
open Spec Verif.Ff

variable {C b n R : Nat}

/-- `x` is the canonical `m`-digit representation of `V` -/
structure IsNum (b n R m : Nat) (x : FF C) (V : Nat) : Prop where
  len : x.length = m
  canon : Canon b n R x
  val : fval b R x = V

theorem IsNum.frep {m : Nat} {x : FF C} {V : Nat} (h : IsNum b n R m x V) : FRep b n R m x V := by
  have := h.canon.frep h.len
  rwa [h.val] at this

theorem IsNum.lt {m : Nat} {x : FF C} {V : Nat} (h : IsNum b n R m x V) : V < 2 ^ (R * m) := by
  have := h.canon.bounds.2
  rw [h.val, h.len] at this
  exact_mod_cast this

theorem IsNum.ltI {m : Nat} {x : FF C} {V : Nat} (h : IsNum b n R m x V) : (V : Int) < 2 ^ (R * m) := by
  have := h.lt
  exact_mod_cast this

theorem IsNum.of {m : Nat} {x : FF C} {V : Nat} (h : FRep b n R m x V) (hlt : V < 2 ^ (R * m)) : IsNum b n R m x V :=
  ⟨h.len, h.canon (by omega) (by exact_mod_cast hlt), h.val⟩

/-- the encoding exists: decoding the big-endian bytes of a number -/
theorem isNum_fromBytes (f : FOk C b n R) {mb : Nat} (hR : R = 8 * mb) (m V : Nat) (hV : V < 2 ^ (R * m)) :
    IsNum b n R m (fromBytes (C := C) b n mb m (beBytes (m * mb) V)) V := by
  obtain ⟨h1, h2, h3⟩ := fromBytes_ff (C := C) f hR m (beBytes (m * mb) V) (by rw [beBytes_length])
  have e256 : (256 : Nat) ^ (m * mb) = 2 ^ (R * m) := by
    rw [hR, show 8 * mb * m = 8 * (m * mb) by ring, pow_mul 2 8]; norm_num
  refine ⟨h1, h2, ?_⟩
  rw [h3, List.take_of_length_le (by rw [beBytes_length]), beNat_beBytes, e256, Nat.mod_eq_of_lt hV]

/-! The RSA configurations of the code base (rom/rom_rsa*.rs and the `big` modules they use) -/

/-- RSA-2048 on 64-bit words: 1024-bit digits of 18 limbs of 58 bits, half-size numbers have 1 digit -/
theorem cfg2048_64 : FOk 64 58 18 1024 := by decide
/-- RSA-2048 on 32-bit words -/
theorem cfg2048_32 : FOk 32 28 37 1024 := by decide
/-- RSA-3072 on 64-bit words: 384-bit digits, half-size numbers have 4 digits -/
theorem cfg3072_64 : FOk 64 56 7 384 := by decide
/-- RSA-3072 on 32-bit words -/
theorem cfg3072_32 : FOk 32 29 14 384 := by decide
/-- RSA-4096 on 64-bit words: 512-bit digits, half-size numbers have 4 digits -/
theorem cfg4096_64 : FOk 64 60 9 512 := by decide
/-- RSA-4096 on 32-bit words -/
theorem cfg4096_32 : FOk 32 29 18 512 := by decide

/-! ### C69: multiplication -/

/-- C69. The product of two numbers of `2^k` digits is their product, in `2^(k+1)` canonical digits. -/
theorem C69_mul (f : FOk C b n R) {k : Nat} (hk : k ≤ 20) {x y : FF C} {X Y : Nat} (hx : IsNum b n R (2 ^ k) x X) (hy : IsNum b n R (2 ^ k) y Y) :
    IsNum b n R (2 ^ (k + 1)) (mul b n R k x y) (X * Y) := by
  have hfe := f.fex_ge
  have hkI : ((k : Nat) : Int) ≤ 20 := by exact_mod_cast hk
  have hk0 : (0 : Int) ≤ ((k : Nat) : Int) := by positivity
  have m1 := karmul_spec f k (Ex := 1) (Ey := 1) hx.frep hy.frep (by omega) (by linarith [hx.ltI]) (by omega) (by linarith [hy.ltI])
    (by have : (1 + (k : Int)) * (1 + k) ≤ 21 * 21 := mul_le_mul (by linarith) (by linarith) (by linarith) (by norm_num)
        linarith) (by linarith) (by linarith)
  have e2 : 2 * 2 ^ k = 2 ^ (k + 1) := by rw [pow_succ, mul_comm]
  rw [e2] at m1
  refine IsNum.of (by push_cast; exact m1) ?_
  rw [← e2, show R * (2 * 2 ^ k) = R * 2 ^ k + R * 2 ^ k by ring, pow_add]
  exact Nat.mul_lt_mul'' hx.lt hy.lt

/-- C69. Squaring followed by normalisation, as every caller does it, is exact. -/
theorem C69_sqr (f : FOk C b n R) {k : Nat} (hk : k ≤ 5) {x : FF C} {X : Nat} (hx : IsNum b n R (2 ^ k) x X) :
    IsNum b n R (2 ^ (k + 1)) (norm b R (sqr b n R k x)) (X * X) := by
  have hfe := f.fex_ge
  have hkI : ((k : Nat) : Int) ≤ 5 := by exact_mod_cast hk
  have hk0 : (0 : Int) ≤ ((k : Nat) : Int) := by positivity
  have h8 : (2 : Int) ^ k ≤ 2 ^ 5 := pow_le_pow_right₀ (by norm_num) hk
  have m1 := sqr_norm_spec f k (E := 1) hx.frep (by omega) (by linarith [hx.ltI])
    (by have : (1 + (k : Int)) * (1 + k) ≤ 6 * 6 := mul_le_mul (by linarith) (by linarith) (by linarith) (by norm_num)
        linarith) (by linarith)
  have e2 : 2 * 2 ^ k = 2 ^ (k + 1) := by rw [pow_succ, mul_comm]
  rw [e2] at m1
  refine IsNum.of (by push_cast; exact m1) ?_
  rw [← e2, show R * (2 * 2 ^ k) = R * 2 ^ k + R * 2 ^ k by ring, pow_add]
  exact Nat.mul_lt_mul'' hx.lt hx.lt

example : IsNum 56 7 384 8 (mul (C := 64) 56 7 384 2 (fromBytes 56 7 48 4 (beBytes (4 * 48) (2 ^ 1536 - 1)))
    (fromBytes 56 7 48 4 (beBytes (4 * 48) 12345))) ((2 ^ 1536 - 1) * 12345) :=
  C69_mul (k := 2) cfg3072_64 (by norm_num) (isNum_fromBytes (mb := 48) cfg3072_64 rfl 4 (2 ^ 1536 - 1) (by decide +kernel))
    (isNum_fromBytes (mb := 48) cfg3072_64 rfl 4 12345 (by decide +kernel))

/-! ### C70: remainders -/

/-- C70. `rmod` returns the canonical remainder. -/
theorem C70_rmod (f : FOk C b n R) {m : Nat} (hm : 0 < m) {fuel : Nat} (hfu : R * m ≤ fuel) {x p : FF C} {X P : Nat}
    (hx : IsNum b n R m x X) (hp : IsNum b n R m p P) (hP : 0 < P) :
    ∃ r, rmod b R fuel x p = some r ∧ IsNum b n R m r (X % P) := by
  have hcap := le_cap f m
  have hpos := Big.two_pow_pos' (R * m)
  have hxl := hx.ltI
  have hPI : (0 : Int) < P := by exact_mod_cast hP
  obtain ⟨r, r1, r2⟩ := Ff.rmod_spec f hm fuel (frep_norm f hm hx.frep (by omega) (by linarith)) hp.frep (by omega) (by linarith) hPI
    (by have h3 : (2 : Int) ^ (R * m) ≤ 2 ^ fuel := pow_le_pow_right₀ (by norm_num) hfu
        have h4 : (2 : Int) ^ fuel * 1 ≤ 2 ^ fuel * P := mul_le_mul_of_nonneg_left (by linarith) (Big.two_pow_pos' _).le
        linarith)
  refine ⟨r, r1, IsNum.of (by push_cast; exact r2) ?_⟩
  exact lt_of_le_of_lt (Nat.mod_le _ _) hx.lt

/-- C70. `dmod` returns the canonical remainder of a double-length number, if the quotient by `2^(R·m)·P` is below
`fuel` (the program subtracts `2^(R·m)·P` repeatedly). -/
theorem C70_dmod (f : FOk C b n R) {m : Nat} (hm : 0 < m) {fuel : Nat} (hfu : 0 < fuel) {x p : FF C} {X P : Nat}
    (hx : IsNum b n R (m + m) x X) (hp : IsNum b n R m p P) (hP : 0 < P) (hq : X < fuel * (2 ^ (R * m) * P)) :
    ∃ r, dmod b n R fuel x p = some r ∧ IsNum b n R m r (X % P) := by
  have hcap := le_cap f (m + m)
  have hpos := Big.two_pow_pos' (R * (m + m))
  have hxl := hx.ltI
  have hPI : (0 : Int) < P := by exact_mod_cast hP
  obtain ⟨r, r1, r2⟩ := Ff.dmod_spec f hm fuel (frep_norm f (by omega) hx.frep (by omega) (by linarith)) hp.frep (by omega) (by linarith) hPI hp.ltI
    (by exact_mod_cast hq) hfu
  refine ⟨r, r1, IsNum.of (by push_cast; exact r2) ?_⟩
  exact lt_trans (Nat.mod_lt _ hP) hp.lt

example : ∃ r, dmod (C := 32) 29 14 384 3 (fromBytes 29 14 48 8 (beBytes (8 * 48) (2 ^ 3000 + 7))) (fromBytes 29 14 48 4 (beBytes (4 * 48) (2 ^ 1535 + 99))) = some r ∧
    IsNum 29 14 384 4 r ((2 ^ 3000 + 7) % (2 ^ 1535 + 99)) :=
  C70_dmod (m := 4) cfg3072_32 (by norm_num) (by norm_num) (isNum_fromBytes (mb := 48) cfg3072_32 rfl 8 (2 ^ 3000 + 7) (by decide +kernel))
    (isNum_fromBytes (mb := 48) cfg3072_32 rfl 4 (2 ^ 1535 + 99) (by decide +kernel)) (by decide +kernel) (by decide +kernel)

/-! ### C71: Montgomery arithmetic -/

/-- C71. `invmod2m` returns an inverse modulo `2^(R·2^k)`, up to a multiple of that power (its value can reach twice the
power). -/
theorem C71_invmod2m (f : FOk C b n R) (hR : 8 < R) {k : Nat} (hk : k ≤ 20) {p : FF C} {P : Nat} (hp : IsNum b n R (2 ^ k) p P) (ho : P % 2 = 1) :
    ∃ V : Nat, fval b R (invmod2m b n R k p) = V ∧ V < 2 * 2 ^ (R * 2 ^ k) ∧ V * P % 2 ^ (R * 2 ^ k) = 1 := by
  obtain ⟨M, h1, h2, h3, h4⟩ := invmod2m_ff f hR k hk hp.len hp.canon (by rw [hp.val]; omega)
  obtain ⟨V, rfl⟩ := Int.eq_ofNat_of_zero_le h2
  refine ⟨V, h1.val, by exact_mod_cast h3, ?_⟩
  rw [hp.val] at h4
  have h5 : (1 : Nat) < 2 ^ (R * 2 ^ k) := Nat.one_lt_two_pow (by positivity)
  have h6 := h4.eq
  have h7 : (1 : Int) % 2 ^ (R * 2 ^ k) = 1 := Int.emod_eq_of_lt (by norm_num) (by exact_mod_cast h5)
  rw [h7] at h6
  exact_mod_cast h6

/-- the conditions on a modulus of `2^k` digits: odd, above 1, and prime if there is one digit only -/
structure Modulus (b n R k : Nat) (p : FF C) (P : Nat) : Prop where
  num : IsNum b n R (2 ^ k) p P
  gt : 1 < P
  odd : P % 2 = 1
  prime : k = 0 → Nat.Prime P

theorem Modulus.arith2 (f : FOk C b n R) (hR : 8 < R) {k : Nat} (hk : k ≤ 3) {fuel : Nat} (hfu : b * n + R * 2 ^ k ≤ fuel) {p : FF C} {P : Nat}
    (h : Modulus b n R k p P) :
    MCtx b n R fuel k p (invmod2m b n R k p) P ∧ ∃ W S, MArith b n R fuel k p (invmod2m b n R k p) P W S 2 := by
  have c := RsaFf.mctx f hR (by omega) hfu h.num.frep (by exact_mod_cast h.gt) h.num.ltI (by have := h.odd; omega)
  refine ⟨c, ?_⟩
  cases k with
  | zero => exact ⟨_, _, MArith.zero f c (Nat.prime_iff_prime_int.1 (h.prime rfl)) 2⟩
  | succ k => exact ⟨_, MArith.room f (by omega) c 2 (Or.inl (by have := f.fex_ge; push_cast; linarith))⟩

theorem num_of_mod {k : Nat} {r : FF C} {V : Int} {P : Nat} (h : FRep b n R (2 ^ k) r (V % P)) (hP : 0 < P) (hlt : P < 2 ^ (R * 2 ^ k)) {N : Nat} (hN : V = N) :
    IsNum b n R (2 ^ k) r (N % P) := by
  subst hN
  exact IsNum.of (by push_cast; exact h) (lt_trans (Nat.mod_lt _ hP) hlt)

/-- C71. Conversion to Montgomery form, multiplication and conversion back give the canonical product modulo `P`. -/
theorem C71_modmul (f : FOk C b n R) (hR : 8 < R) {k : Nat} (hk : k ≤ 3) {fuel : Nat} (hfu : b * n + R * 2 ^ k ≤ fuel) {p x y : FF C} {P X Y : Nat}
    (hp : Modulus b n R k p P) (hx : IsNum b n R (2 ^ k) x X) (hy : IsNum b n R (2 ^ k) y Y) (hxf : X < fuel * P) (hyf : Y < fuel * P) :
    ∃ x' y' z r, nres b n R fuel k x p = some x' ∧ nres b n R fuel k y p = some y' ∧
      modmul b n R fuel k x' y' p (invmod2m b n R k p) = some z ∧ redc b n R fuel k z p (invmod2m b n R k p) = some r ∧
      IsNum b n R (2 ^ k) r (X * Y % P) := by
  obtain ⟨c, W, S, A⟩ := hp.arith2 f hR hk hfu
  obtain ⟨w, V, w1, w2, w3, w4⟩ := A.nresS hx.frep (by omega) hx.ltI (by exact_mod_cast hxf)
  obtain ⟨u, U, u1, u2, u3, u4⟩ := A.nresS hy.frep (by omega) hy.ltI (by exact_mod_cast hyf)
  obtain ⟨z, Z, z1, z2, z3, z4⟩ := A.mul 0 0 w u V U (by omega) (by omega) w2 u2 w3 u3
  obtain ⟨r, r1, r2⟩ := A.redcS (by omega) z2 z3 (mont_mul A.cop z4 w4 u4)
  exact ⟨w, u, z, r, w1, u1, z1, r1, num_of_mod r2 (by have := hp.gt; omega) hp.num.lt (by push_cast; rfl)⟩

/-- C71. The same for squaring. -/
theorem C71_modsqr (f : FOk C b n R) (hR : 8 < R) {k : Nat} (hk : k ≤ 3) {fuel : Nat} (hfu : b * n + R * 2 ^ k ≤ fuel) {p x : FF C} {P X : Nat}
    (hp : Modulus b n R k p P) (hx : IsNum b n R (2 ^ k) x X) (hxf : X < fuel * P) :
    ∃ x' z r, nres b n R fuel k x p = some x' ∧
      modsqr b n R fuel k x' p (invmod2m b n R k p) = some z ∧ redc b n R fuel k z p (invmod2m b n R k p) = some r ∧
      IsNum b n R (2 ^ k) r (X * X % P) := by
  obtain ⟨c, W, S, A⟩ := hp.arith2 f hR hk hfu
  obtain ⟨w, V, w1, w2, w3, w4⟩ := A.nresS hx.frep (by omega) hx.ltI (by exact_mod_cast hxf)
  obtain ⟨z, Z, z1, z2, z3, z4⟩ := A.sqr 0 w V (by omega) w2 w3
  obtain ⟨r, r1, r2⟩ := A.redcS (by omega) z2 z3 (mont_mul A.cop z4 w4 w4)
  exact ⟨w, z, r, w1, z1, r1, num_of_mod r2 (by have := hp.gt; omega) hp.num.lt (by push_cast; rfl)⟩

/-! ### C72: exponentiation -/

/-- C72. Constant-time exponentiation `skpow` returns `X^E mod P`, in canonical form, for every exponent. -/
theorem C72_skpow (f : FOk C b n R) (hR : 8 < R) {k : Nat} (hk : k ≤ 3) {fuel : Nat} (hfu : b * n + R * 2 ^ k ≤ fuel) {p x e : FF C} {P X E : Nat}
    (hp : Modulus b n R k p P) (hroom : Room b n R k P) (hx : IsNum b n R (2 ^ k) x X) (he : IsNum b n R (2 ^ k) e E) :
    ∃ r, skpow b n R fuel k x e p = some r ∧ IsNum b n R (2 ^ k) r (X ^ E % P) := by
  obtain ⟨r, r1, r2⟩ := RsaFf.skpow_ff f hR hk hfu hp.num.frep (by exact_mod_cast hp.gt) hp.num.ltI (by have := hp.odd; omega)
    (fun h => Nat.prime_iff_prime_int.1 (hp.prime h)) hroom he.canon he.len he.val hx.frep (by omega)
    (by linarith [hx.ltI, le_cap f (2 ^ k), Big.two_pow_pos' (R * 2 ^ k)])
  exact ⟨r, r1, num_of_mod r2 (by have := hp.gt; omega) hp.num.lt (by push_cast; rfl)⟩

/-- C72. `skpows`: the same with an exponent of one digit. -/
theorem C72_skpows (f : FOk C b n R) (hR : 8 < R) {k : Nat} (hk : k ≤ 3) {fuel : Nat} (hfu : b * n + R * 2 ^ k ≤ fuel) {p x : FF C} {e : List (BitVec C)} {P X E : Nat}
    (hp : Modulus b n R k p P) (hroom : Room b n R k P) (hx : IsNum b n R (2 ^ k) x X) (he : CanonD b n R e) (hE : limbsVal b e = E) :
    ∃ r, skpows b n R fuel k x e p = some r ∧ IsNum b n R (2 ^ k) r (X ^ E % P) := by
  have c := RsaFf.mctx f hR (by omega) hfu hp.num.frep (by exact_mod_cast hp.gt) hp.num.ltI (by have := hp.odd; omega)
  obtain ⟨W, S, A⟩ := RsaFf.arith f hk c (fun h => Nat.prime_iff_prime_int.1 (hp.prime h)) hroom
  have hEl : E < 2 ^ R := by have := he.lt; rw [hE] at this; exact_mod_cast this
  obtain ⟨r, r1, r2⟩ := skFrame_spec f c A E R (Nat.le_mul_of_pos_right _ (by positivity)) hEl (Big.bit b e) (bit_digit f he hE) hx.frep (by omega)
    (by linarith [hx.ltI, le_cap f (2 ^ k), Big.two_pow_pos' (R * 2 ^ k)])
  exact ⟨r, r1, num_of_mod r2 (by have := hp.gt; omega) hp.num.lt (by push_cast; rfl)⟩

/-- C72. `power` returns `X^e mod P` for every exponent `e ≥ 1`; no room is needed. -/
theorem C72_power (f : FOk C b n R) (hR : 8 < R) {k : Nat} (hk : k ≤ 3) {fuel : Nat} (hfu : b * n + R * 2 ^ k ≤ fuel) {p x : FF C} {P X e : Nat}
    (hp : Modulus b n R k p P) (hx : IsNum b n R (2 ^ k) x X) (hxf : X < fuel * P) (he : 0 < e) (hef : e < 2 ^ fuel) :
    ∃ r, power b n R fuel k x e p = some r ∧ IsNum b n R (2 ^ k) r (X ^ e % P) := by
  obtain ⟨c, W, S, A⟩ := hp.arith2 f hR hk hfu
  obtain ⟨r, r1, r2⟩ := power_spec A (by norm_num) he hef hx.frep (by omega) hx.ltI (by exact_mod_cast hxf)
  exact ⟨r, r1, num_of_mod r2 (by have := hp.gt; omega) hp.num.lt (by push_cast; rfl)⟩

/-- C72. `pow` returns `X^E mod P` for every exponent; no room is needed. -/
theorem C72_pow (f : FOk C b n R) (hR : 8 < R) {k : Nat} (hk : k ≤ 3) {fuel : Nat} (hfu : b * n + R * 2 ^ k ≤ fuel) {p x e : FF C} {P X E : Nat}
    (hp : Modulus b n R k p P) (hx : IsNum b n R (2 ^ k) x X) (hxf : X < fuel * P) (he : IsNum b n R (2 ^ k) e E) :
    ∃ r, pow b n R fuel k x e p = some r ∧ IsNum b n R (2 ^ k) r (X ^ E % P) := by
  obtain ⟨c, W, S, A⟩ := hp.arith2 f hR hk hfu
  obtain ⟨r, r1, r2⟩ := pow_spec f c A (by norm_num) he.canon he.len he.val hx.frep (by omega) hx.ltI (by exact_mod_cast hxf)
  exact ⟨r, r1, num_of_mod r2 (by have := hp.gt; omega) hp.num.lt (by push_cast; rfl)⟩

/-- C72. `pow2` returns `X^E·Y^F mod P` for every pair of one-digit exponents; no room is needed. -/
theorem C72_pow2 (f : FOk C b n R) (hR : 8 < R) {k : Nat} (hk : k ≤ 3) {fuel : Nat} (hfu : b * n + R * 2 ^ k ≤ fuel) {p x y : FF C} {e g : List (BitVec C)}
    {P X Y E F : Nat}
    (hp : Modulus b n R k p P) (hx : IsNum b n R (2 ^ k) x X) (hxf : X < fuel * P) (hy : IsNum b n R (2 ^ k) y Y) (hyf : Y < fuel * P)
    (he : CanonD b n R e) (hE : limbsVal b e = E) (hg : CanonD b n R g) (hF : limbsVal b g = F) :
    ∃ r, pow2 b n R fuel k x e y g p = some r ∧ IsNum b n R (2 ^ k) r (X ^ E * Y ^ F % P) := by
  obtain ⟨c, W, S, A⟩ := hp.arith2 f hR hk hfu
  obtain ⟨r, r1, r2⟩ := pow2_spec f c A (by norm_num) he hE hg hF hx.frep (by omega) hx.ltI (by exact_mod_cast hxf) hy.frep (by omega) hy.ltI (by exact_mod_cast hyf)
  exact ⟨r, r1, num_of_mod r2 (by have := hp.gt; omega) hp.num.lt (by push_cast; rfl)⟩

/-- a modulus of four digits: `2^1535 + 99` (odd, not necessarily prime) -/
theorem modulus_ex : Modulus (C := 64) 56 7 384 2 (fromBytes 56 7 48 4 (beBytes (4 * 48) (2 ^ 1535 + 99))) (2 ^ 1535 + 99) :=
  ⟨isNum_fromBytes (mb := 48) cfg3072_64 rfl 4 (2 ^ 1535 + 99) (by decide +kernel), by decide +kernel, by decide +kernel, by norm_num⟩
/-- a modulus of one digit must be prime -/
theorem modulus_ex1 : Modulus (C := 64) 58 18 1024 0 (fromBytes 58 18 128 1 (beBytes (1 * 128) 65537)) 65537 :=
  ⟨isNum_fromBytes (mb := 128) cfg2048_64 rfl 1 65537 (by decide +kernel), by norm_num, by norm_num, fun _ => by norm_num⟩

theorem room_ex : Room 56 7 384 2 ((2 ^ 1535 + 99 : Nat) : Int) := Or.inr (Or.inr (by decide +kernel))

example : ∃ x e r, IsNum (C := 64) 56 7 384 4 x (2 ^ 1536 - 1) ∧ IsNum (C := 64) 56 7 384 4 e (2 ^ 1400 + 3) ∧
    skpow 56 7 384 2000 2 x e (fromBytes 56 7 48 4 (beBytes (4 * 48) (2 ^ 1535 + 99))) = some r ∧
    IsNum 56 7 384 4 r ((2 ^ 1536 - 1) ^ (2 ^ 1400 + 3) % (2 ^ 1535 + 99)) := by
  have hx := isNum_fromBytes (mb := 48) cfg3072_64 rfl 4 (2 ^ 1536 - 1) (by decide +kernel)
  have he := isNum_fromBytes (mb := 48) cfg3072_64 rfl 4 (2 ^ 1400 + 3) (by decide +kernel)
  obtain ⟨r, h1, h2⟩ := C72_skpow (k := 2) cfg3072_64 (by norm_num) (by norm_num) (fuel := 2000) (by norm_num) modulus_ex room_ex hx he
  exact ⟨_, _, r, hx, he, h1, h2⟩

example : ∃ r, power (C := 64) 58 18 1024 3000 0 (fromBytes 58 18 128 1 (beBytes (1 * 128) 1234)) 77 (fromBytes 58 18 128 1 (beBytes (1 * 128) 65537)) = some r ∧
    IsNum 58 18 1024 1 r (1234 ^ 77 % 65537) :=
  C72_power (k := 0) cfg2048_64 (by norm_num) (by norm_num) (by norm_num) modulus_ex1 (isNum_fromBytes (mb := 128) cfg2048_64 rfl 1 1234 (by decide +kernel))
    (by norm_num) (by norm_num) (by decide +kernel)

/-! ### C73: modular inverse -/

/-- C73. `invmodp` returns the inverse modulo an odd modulus, for every coprime argument. -/
theorem C73_invmodp (f : FOk C b n R) {m : Nat} (hm : 0 < m) {fuel : Nat} (hfu : 2 * (R * m) + 1 ≤ fuel) {x p : FF C} {X P : Nat}
    (hx : IsNum b n R m x X) (hp : IsNum b n R m p P) (hX : 0 < X) (hP : 1 < P) (ho : P % 2 = 1) (hco : Nat.Coprime X P) :
    ∃ r Y, invmodp b n R fuel x p = some r ∧ IsNum b n R m r Y ∧ Y < P ∧ X * Y % P = 1 := by
  obtain ⟨r, Y, r1, r2, r3, r4⟩ := invmodp_spec f hm fuel hfu hx.frep hp.frep hX hx.ltI hP ho hp.ltI hco
  exact ⟨r, Y, r1, IsNum.of r2 (lt_trans r3 hp.lt), r3, r4⟩

example : ∃ r Y, invmodp (C := 32) 29 14 384 4000 (fromBytes 29 14 48 4 (beBytes (4 * 48) (2 ^ 1300))) (fromBytes 29 14 48 4 (beBytes (4 * 48) (2 ^ 1535 + 99))) =
    some r ∧ IsNum 29 14 384 4 r Y ∧ Y < 2 ^ 1535 + 99 ∧ 2 ^ 1300 * Y % (2 ^ 1535 + 99) = 1 :=
  C73_invmodp (m := 4) cfg3072_32 (by norm_num) (by norm_num) (isNum_fromBytes (mb := 48) cfg3072_32 rfl 4 (2 ^ 1300) (by decide +kernel))
    (isNum_fromBytes (mb := 48) cfg3072_32 rfl 4 (2 ^ 1535 + 99) (by decide +kernel)) (by decide +kernel) (by decide +kernel) (by decide +kernel) (by decide +kernel)

/-! ### C74: encodings and small operations -/

/-- C74. Decoding reads the big-endian number in the bytes. -/
theorem C74_frombytes (f : FOk C b n R) {mb : Nat} (hR : R = 8 * mb) (m : Nat) (bs : List (BitVec 8)) (hl : bs.length = m * mb) :
    IsNum b n R m (fromBytes (C := C) b n mb m bs) (beNat bs) := by
  obtain ⟨h1, h2, h3⟩ := fromBytes_ff (C := C) f hR m bs (by omega)
  rw [List.take_of_length_le (by omega)] at h3
  exact ⟨h1, h2, h3⟩

/-- C74. Encoding writes the big-endian bytes. -/
theorem C74_tobytes (f : FOk C b n R) {mb : Nat} (hR : R = 8 * mb) {m : Nat} {x : FF C} {X : Nat} (hx : IsNum b n R m x X) :
    toBytes b mb x = beBytes (m * mb) X := by
  rw [toBytes_ff f hR hx.canon, hx.len, hx.val, Int.toNat_natCast]

/-- C74. Encoding what was decoded gives the same bytes back. -/
theorem C74_roundtrip (f : FOk C b n R) {mb : Nat} (hR : R = 8 * mb) (m : Nat) (bs : List (BitVec 8)) (hl : bs.length = m * mb) :
    toBytes b mb (fromBytes (C := C) b n mb m bs) = bs := by
  rw [C74_tobytes f hR (C74_frombytes f hR m bs hl), ← hl, beBytes_beNat]

/-- C74. `comp` compares the numbers. -/
theorem C74_comp {m : Nat} {x y : FF C} {X Y : Nat} (hx : IsNum b n R m x X) (hy : IsNum b n R m y Y) :
    comp x y = Int.sign ((X : Int) - Y) := hx.frep.comp hy.frep

/-- C74. `shr` halves. -/
theorem C74_shr (f : FOk C b n R) {m : Nat} (hm : 0 < m) {x : FF C} {X : Nat} (hx : IsNum b n R m x X) : IsNum b n R m (shr b R x) (X / 2) :=
  IsNum.of (by push_cast; exact shr_spec f hm hx.frep) (lt_of_le_of_lt (Nat.div_le_self _ _) hx.lt)

/-- C74. `shl` doubles, if the result fits. -/
theorem C74_shl (f : FOk C b n R) {m : Nat} (hm : 0 < m) {x : FF C} {X : Nat} (hx : IsNum b n R m x X) (h : 2 * X < 2 ^ (R * m)) :
    IsNum b n R m (shl b R x) (2 * X) :=
  IsNum.of (by push_cast; exact shl_spec f hm hx.frep (by omega) (by linarith [hx.ltI, le_cap f m, Big.two_pow_pos' (R * m)])) h

/-- C74. Addition and subtraction followed by normalisation. -/
theorem C74_add_sub (f : FOk C b n R) {m : Nat} (hm : 0 < m) {x y : FF C} {X Y : Nat} (hx : IsNum b n R m x X) (hy : IsNum b n R m y Y) :
    (X + Y < 2 ^ (R * m) → IsNum b n R m (norm b R (add x y)) (X + Y)) ∧ (Y ≤ X → IsNum b n R m (norm b R (sub x y)) (X - Y)) := by
  have c := le_cap f m
  have hp := Big.two_pow_pos' (R * m)
  have h1 := hx.ltI
  have h2 := hy.ltI
  constructor
  · intro h
    exact IsNum.of (by push_cast; exact norm_add_frep f hm hx.frep hy.frep (by omega) (by linarith) (by omega) (by linarith)) h
  · intro h
    refine IsNum.of ?_ (lt_of_le_of_lt (Nat.sub_le _ _) hx.lt)
    rw [Nat.cast_sub h]
    exact norm_sub_frep f hm hx.frep hy.frep (by omega) (by linarith) (by omega) (by linarith)

/-! ### C41, C75: RSA on the multi-precision arithmetic -/

/-- the inputs of an RSA round trip with half-size numbers of `2^k` digits of `mb` bytes: `p`, `q` hold different primes
that are 3 modulo 4 and the odd public exponent `e` (one word) is invertible modulo `(P-1)/2` and `(Q-1)/2` -/
structure RsaInput (b n R k : Nat) (p q : FF C) (P Q e : Nat) : Prop where
  p : IsNum b n R (2 ^ k) p P
  q : IsNum b n R (2 ^ k) q Q
  pp : Nat.Prime P
  qp : Nat.Prime Q
  ne : P ≠ Q
  p3 : P % 4 = 3
  q3 : Q % 4 = 3
  p7 : 7 ≤ P
  q7 : 7 ≤ Q
  odd : e % 2 = 1
  small : e < 2 ^ b
  cp : Nat.Coprime e ((P - 1) / 2)
  cq : Nat.Coprime e ((Q - 1) / 2)

/-- General form: key generation succeeds, and decrypting an encrypted message block below the modulus gives it back; the
ciphertext is the big-endian form of `msg^e mod PQ`. -/
theorem rsa_roundtrip (f : FOk C b n R) (hR : 8 < R) {mb : Nat} (hmb : R = 8 * mb) {k : Nat} (hk : k ≤ 2) {fuel : Nat}
    (hfu : b * n + R * 2 ^ (k + 1) + 2 ≤ fuel) {p q : FF C} {P Q e : Nat} (h : RsaInput b n R k p q P Q e)
    (rP : Room b n R k P) (rQ : Room b n R k Q)
    (msg : List (BitVec 8)) (hl : msg.length = 2 ^ (k + 1) * mb) (hx : beNat msg < P * Q) :
    ∃ prv m c, RsaFf.keyPair b n R fuel k e p q = some (prv, m) ∧ RsaFf.encrypt b n R mb fuel k e m msg = some c ∧
      c = beBytes (2 ^ (k + 1) * mb) (beNat msg ^ e % (P * Q)) ∧ RsaFf.decrypt b n R mb fuel k prv c = some msg := by
  have he0 : 0 < e := by have := h.odd; omega
  have e2 : R * 2 ^ (k + 1) = R * 2 ^ k + R * 2 ^ k := by rw [pow_succ]; ring
  have hcop : Nat.Coprime P Q := (Nat.coprime_primes h.pp h.qp).2 h.ne
  have hbn : 1 ≤ b * n := by
    have := f.hf
    rcases Nat.eq_zero_or_pos (b * n) with h0 | h0
    · omega
    · exact h0
  obtain ⟨prv, m, DP, DQ, Cc, k1, k2, k3, k4, k5, k6, k7, k8⟩ := RsaFf.keyPair_ff f (k := k) (by omega) (fuel := fuel)
    (by rw [two_mul]; omega) h.p.frep h.p.ltI h.p7 h.p3 h.q.frep h.q.ltI h.q7 h.q3 hcop he0 (by exact_mod_cast h.small) h.cp h.cq
  have hPQ : P * Q < 2 ^ (R * 2 ^ (k + 1)) := by rw [e2, pow_add]; exact Nat.mul_lt_mul'' h.p.lt h.q.lt
  have hPQ1 : 1 < P * Q := lt_of_lt_of_le h.pp.one_lt (Nat.le_mul_of_pos_right _ h.qp.pos)
  have hodd : P * Q % 2 = 1 := by
    have h1 : P % 2 = 1 := by have := h.p3; omega
    have h2 : Q % 2 = 1 := by have := h.q3; omega
    rw [Nat.mul_mod, h1, h2]
  have hef : e < 2 ^ fuel := lt_of_lt_of_le h.small (Nat.pow_le_pow_right (by norm_num) (by
    have : 1 ≤ n := by
      rcases Nat.eq_zero_or_pos n with h0 | h0
      · rw [h0] at hbn; omega
      · exact h0
    have : b ≤ b * n := Nat.le_mul_of_pos_right _ this
    omega))
  have en := RsaFf.encrypt_ff f hR hmb hk (fuel := fuel) (by omega) k3 hPQ1 (by exact_mod_cast hPQ) hodd he0 hef msg hl hx
  have hc : beNat msg ^ e % (P * Q) < P * Q := Nat.mod_lt _ (by omega)
  have hR2 : (256 : Nat) ^ (2 ^ (k + 1) * mb) = 2 ^ (R * 2 ^ (k + 1)) := by
    rw [hmb, show 8 * mb * 2 ^ (k + 1) = 8 * (2 ^ (k + 1) * mb) by ring, pow_mul 2 8]; norm_num
  have hbe : beNat (beBytes (2 ^ (k + 1) * mb) (beNat msg ^ e % (P * Q))) = beNat msg ^ e % (P * Q) := by
    rw [beNat_beBytes, hR2, Nat.mod_eq_of_lt (lt_trans hc hPQ)]
  have de := RsaFf.decrypt_ff f hR hmb (k := k) (by omega) (fuel := fuel) (by omega) k2 h.pp h.qp (by have := h.p3; omega) (by have := h.q3; omega) rP rQ
    (beBytes (2 ^ (k + 1) * mb) (beNat msg ^ e % (P * Q))) (by rw [beBytes_length]) (by rw [hbe]; exact hc)
  refine ⟨prv, m, _, k1, en, rfl, ?_⟩
  rw [de, hbe]
  have := decrypt_core e P Q DP DQ Cc (beNat msg) h.pp h.qp h.ne h.p3 h.q3 h.odd k6 k4 k7 k5 k8 hx
  unfold Verif.Rsa.encrypt at this
  rw [this, ← hl, beBytes_beNat]

/-- C41, RSA-2048 on 64-bit words: no further condition on the primes. -/
theorem C41_rsa2048_64 {fuel : Nat} (hfu : 3094 ≤ fuel) {p q : FF 64} {P Q e : Nat} (h : RsaInput 58 18 1024 0 p q P Q e)
    (msg : List (BitVec 8)) (hl : msg.length = 256) (hx : beNat msg < P * Q) :
    ∃ prv m c, RsaFf.keyPair 58 18 1024 fuel 0 e p q = some (prv, m) ∧ RsaFf.encrypt 58 18 1024 128 fuel 0 e m msg = some c ∧
      c = beBytes 256 (beNat msg ^ e % (P * Q)) ∧ RsaFf.decrypt 58 18 1024 128 fuel 0 prv c = some msg :=
  rsa_roundtrip cfg2048_64 (by norm_num) (by norm_num) (by norm_num) (by omega) h (Or.inl rfl) (Or.inl rfl) msg hl hx

/-- C41, RSA-2048 on 32-bit words: no further condition on the primes. -/
theorem C41_rsa2048_32 {fuel : Nat} (hfu : 3086 ≤ fuel) {p q : FF 32} {P Q e : Nat} (h : RsaInput 28 37 1024 0 p q P Q e)
    (msg : List (BitVec 8)) (hl : msg.length = 256) (hx : beNat msg < P * Q) :
    ∃ prv m c, RsaFf.keyPair 28 37 1024 fuel 0 e p q = some (prv, m) ∧ RsaFf.encrypt 28 37 1024 128 fuel 0 e m msg = some c ∧
      c = beBytes 256 (beNat msg ^ e % (P * Q)) ∧ RsaFf.decrypt 28 37 1024 128 fuel 0 prv c = some msg :=
  rsa_roundtrip cfg2048_32 (by norm_num) (by norm_num) (by norm_num) (by omega) h (Or.inl rfl) (Or.inl rfl) msg hl hx

/-- C41, RSA-3072 on 32-bit words: no further condition on the primes. -/
theorem C41_rsa3072_32 {fuel : Nat} (hfu : 3480 ≤ fuel) {p q : FF 32} {P Q e : Nat} (h : RsaInput 29 14 384 2 p q P Q e)
    (msg : List (BitVec 8)) (hl : msg.length = 384) (hx : beNat msg < P * Q) :
    ∃ prv m c, RsaFf.keyPair 29 14 384 fuel 2 e p q = some (prv, m) ∧ RsaFf.encrypt 29 14 384 48 fuel 2 e m msg = some c ∧
      c = beBytes 384 (beNat msg ^ e % (P * Q)) ∧ RsaFf.decrypt 29 14 384 48 fuel 2 prv c = some msg :=
  rsa_roundtrip cfg3072_32 (by norm_num) (by norm_num) (by norm_num) (by omega) h (Or.inr (Or.inl (by norm_num))) (Or.inr (Or.inl (by norm_num))) msg hl hx

/-- C41, RSA-4096 on 64-bit words: no further condition on the primes. -/
theorem C41_rsa4096_64 {fuel : Nat} (hfu : 4638 ≤ fuel) {p q : FF 64} {P Q e : Nat} (h : RsaInput 60 9 512 2 p q P Q e)
    (msg : List (BitVec 8)) (hl : msg.length = 512) (hx : beNat msg < P * Q) :
    ∃ prv m c, RsaFf.keyPair 60 9 512 fuel 2 e p q = some (prv, m) ∧ RsaFf.encrypt 60 9 512 64 fuel 2 e m msg = some c ∧
      c = beBytes 512 (beNat msg ^ e % (P * Q)) ∧ RsaFf.decrypt 60 9 512 64 fuel 2 prv c = some msg :=
  rsa_roundtrip cfg4096_64 (by norm_num) (by norm_num) (by norm_num) (by omega) h (Or.inr (Or.inl (by norm_num))) (Or.inr (Or.inl (by norm_num))) msg hl hx

/-- C75, RSA-3072 on 64-bit words, for primes up to `126/127·2^1536`.  Missing: the primes above that bound, for which a
run of zero bits in the secret exponent lets an intermediate value of the exponentiation outgrow its digits' headroom. -/
theorem C75_rsa3072_64_partial {fuel : Nat} (hfu : 3466 ≤ fuel) {p q : FF 64} {P Q e : Nat} (h : RsaInput 56 7 384 2 p q P Q e)
    (hP : 127 * P ≤ 126 * 2 ^ 1536) (hQ : 127 * Q ≤ 126 * 2 ^ 1536)
    (msg : List (BitVec 8)) (hl : msg.length = 384) (hx : beNat msg < P * Q) :
    ∃ prv m c, RsaFf.keyPair 56 7 384 fuel 2 e p q = some (prv, m) ∧ RsaFf.encrypt 56 7 384 48 fuel 2 e m msg = some c ∧
      c = beBytes 384 (beNat msg ^ e % (P * Q)) ∧ RsaFf.decrypt 56 7 384 48 fuel 2 prv c = some msg := by
  refine rsa_roundtrip cfg3072_64 (by norm_num) (by norm_num) (by norm_num) (by omega) h (Or.inr (Or.inr ?_)) (Or.inr (Or.inr ?_)) msg hl hx
  · norm_num only
    linarith
  · norm_num only
    linarith

/-- C75, RSA-4096 on 32-bit words, for primes up to `510/511·2^2048`.  Missing: the primes above that bound. -/
theorem C75_rsa4096_32_partial {fuel : Nat} (hfu : 4620 ≤ fuel) {p q : FF 32} {P Q e : Nat} (h : RsaInput 29 18 512 2 p q P Q e)
    (hP : 511 * P ≤ 510 * 2 ^ 2048) (hQ : 511 * Q ≤ 510 * 2 ^ 2048)
    (msg : List (BitVec 8)) (hl : msg.length = 512) (hx : beNat msg < P * Q) :
    ∃ prv m c, RsaFf.keyPair 29 18 512 fuel 2 e p q = some (prv, m) ∧ RsaFf.encrypt 29 18 512 64 fuel 2 e m msg = some c ∧
      c = beBytes 512 (beNat msg ^ e % (P * Q)) ∧ RsaFf.decrypt 29 18 512 64 fuel 2 prv c = some msg := by
  refine rsa_roundtrip cfg4096_32 (by norm_num) (by norm_num) (by norm_num) (by omega) h (Or.inr (Or.inr ?_)) (Or.inr (Or.inr ?_)) msg hl hx
  · norm_num only
    linarith
  · norm_num only
    linarith

/-- `7`, `19` and `e = 5` are inputs of an RSA round trip, in every configuration -/
theorem rsaInput_ex (f : FOk C b n R) {mb : Nat} (hmb : R = 8 * mb) (hR : 8 < R) (hb : 3 ≤ b) (k : Nat) :
    RsaInput b n R k (fromBytes (C := C) b n mb (2 ^ k) (beBytes (2 ^ k * mb) 7)) (fromBytes (C := C) b n mb (2 ^ k) (beBytes (2 ^ k * mb) 19)) 7 19 5 := by
  have h1 : (2 : Nat) ^ 8 ≤ 2 ^ (R * 2 ^ k) := Nat.pow_le_pow_right (by norm_num) (le_trans hR.le (Nat.le_mul_of_pos_right _ (by positivity)))
  have h2 : (2 : Nat) ^ 3 ≤ 2 ^ b := Nat.pow_le_pow_right (by norm_num) hb
  exact ⟨isNum_fromBytes f hmb _ _ (by omega), isNum_fromBytes f hmb _ _ (by omega), by norm_num, by norm_num, by norm_num, by norm_num, by norm_num,
    by norm_num, by norm_num, by norm_num, by omega, by norm_num, by norm_num⟩

example : beNat (beBytes 256 100) < 7 * 19 ∧ (∃ p q, RsaInput (C := 64) 58 18 1024 0 p q 7 19 5) :=
  ⟨by decide +kernel, ⟨_, _, rsaInput_ex cfg2048_64 (mb := 128) rfl (by norm_num) (by norm_num) 0⟩⟩
example : (∃ p q, RsaInput (C := 32) 28 37 1024 0 p q 7 19 5) := ⟨_, _, rsaInput_ex cfg2048_32 (mb := 128) rfl (by norm_num) (by norm_num) 0⟩
example : (∃ p q, RsaInput (C := 32) 29 14 384 2 p q 7 19 5) := ⟨_, _, rsaInput_ex cfg3072_32 (mb := 48) rfl (by norm_num) (by norm_num) 2⟩
example : (∃ p q, RsaInput (C := 64) 60 9 512 2 p q 7 19 5) := ⟨_, _, rsaInput_ex cfg4096_64 (mb := 64) rfl (by norm_num) (by norm_num) 2⟩
example : (∃ p q, RsaInput (C := 64) 56 7 384 2 p q 7 19 5) ∧ 127 * 19 ≤ 126 * 2 ^ 1536 :=
  ⟨⟨_, _, rsaInput_ex cfg3072_64 (mb := 48) rfl (by norm_num) (by norm_num) 2⟩, by decide +kernel⟩
example : (∃ p q, RsaInput (C := 32) 29 18 512 2 p q 7 19 5) ∧ 511 * 19 ≤ 510 * 2 ^ 2048 :=
  ⟨⟨_, _, rsaInput_ex cfg4096_32 (mb := 64) rfl (by norm_num) (by norm_num) 2⟩, by decide +kernel⟩

end Verif.Props
