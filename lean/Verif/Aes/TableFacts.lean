import Verif.Aes.Words
/- Helper lemmas: the lookup tables against their algebraic definitions. -/
namespace Verif.Aes

open Spec.Aes (sbox invSbox gmul xtime rcon)

theorem fbsub_table : FBSUB = (List.range 256).map fun i => sbox (BitVec.ofNat 8 i) := by decide +kernel
theorem rbsub_table : RBSUB = (List.range 256).map fun i => invSbox (BitVec.ofNat 8 i) := by decide +kernel
theorem ftable_table : FTABLE = (List.range 256).map fun i =>
    pack [gmul 2 (bt FBSUB i), bt FBSUB i, bt FBSUB i, gmul 3 (bt FBSUB i)] := by decide +kernel
theorem rtable_table : RTABLE = (List.range 256).map fun i =>
    pack [gmul 0xe (bt RBSUB i), gmul 9 (bt RBSUB i), gmul 0xd (bt RBSUB i), gmul 0xb (bt RBSUB i)] := by decide +kernel
theorem rco_table : ∀ k < 14, bt RCO k = rcon (k + 1) := by decide +kernel

theorem lookup {α : Type} (f : Nat → α) (d : α) (x : Byte) : ((List.range 256).map f).getD x.toNat d = f x.toNat := by
  have : x.toNat < 256 := x.isLt
  simp [List.getD_eq_getElem?_getD, this]

theorem fbsub_get (x : Byte) : bt FBSUB x.toNat = sbox x := by
  rw [bt, fbsub_table, lookup]; simp
theorem rbsub_get (x : Byte) : bt RBSUB x.toNat = invSbox x := by
  rw [bt, rbsub_table, lookup]; simp

theorem toNat_sw (x : Byte) : (x.setWidth 32 : BitVec 32).toNat = x.toNat := by
  have := x.isLt
  simp; omega

theorem ft_get (x : Byte) : ft (x.setWidth 32) = pack [gmul 2 (sbox x), sbox x, sbox x, gmul 3 (sbox x)] := by
  rw [ft, toNat_sw, wd, ftable_table, lookup, fbsub_get]
theorem rt_get (x : Byte) : rt (x.setWidth 32) =
    pack [gmul 0xe (invSbox x), gmul 9 (invSbox x), gmul 0xd (invSbox x), gmul 0xb (invSbox x)] := by
  rw [rt, toNat_sw, wd, rtable_table, lookup, rbsub_get]
theorem fb_get (x : Byte) : fb (x.setWidth 32) = pack [sbox x, 0, 0, 0] := by
  rw [fb, toNat_sw, fbsub_get, setWidth_pack]
theorem rb_get (x : Byte) : rb (x.setWidth 32) = pack [invSbox x, 0, 0, 0] := by
  rw [rb, toNat_sw, rbsub_get, setWidth_pack]

/-! field facts -/

theorem all_bytes {P : Byte → Prop} (h : ∀ i < 256, P (BitVec.ofNat 8 i)) (x : Byte) : P x := by
  have := h x.toNat x.isLt
  simpa using this

theorem invSbox_sbox (x : Byte) : invSbox (sbox x) = x :=
  all_bytes (P := fun x => invSbox (sbox x) = x) (by decide +kernel) x
theorem sbox_invSbox (x : Byte) : sbox (invSbox x) = x :=
  all_bytes (P := fun x => sbox (invSbox x) = x) (by decide +kernel) x

theorem xtime_xor (a b : Byte) : xtime (a ^^^ b) = xtime a ^^^ xtime b := by
  unfold xtime
  rw [BitVec.shiftLeft_xor_distrib, BitVec.msb_xor]
  have h : ∀ u v c : Byte, u ^^^ v = (u ^^^ c) ^^^ (v ^^^ c) := by
    intro u v c
    rw [show (u ^^^ c) ^^^ (v ^^^ c) = (u ^^^ v) ^^^ (c ^^^ c) by ac_rfl]; simp
  cases a.msb <;> cases b.msb
  · simp
  · simp; ac_rfl
  · simp; ac_rfl
  · simpa using h _ _ _

theorem gmul_xor (c a b : Byte) : gmul c (a ^^^ b) = gmul c a ^^^ gmul c b := by
  unfold gmul
  induction List.range 8 with
  | nil => simp
  | cons i l ih =>
    simp only [List.foldr_cons, ih, xtime_xor]
    cases c.getLsbD i
    · simp
    · simp; ac_rfl

theorem gmul_one (a : Byte) : gmul 1 a = a :=
  all_bytes (P := fun a => gmul 1 a = a) (by decide +kernel) a

/-- products with the coefficients used by `invmixcol` -/
theorem bmul_eq (y : Byte) : bmul 0xB y = gmul 0xB y ∧ bmul 0xD y = gmul 0xD y ∧ bmul 0x9 y = gmul 0x9 y ∧ bmul 0xE y = gmul 0xE y :=
  all_bytes (P := fun y => bmul 0xB y = gmul 0xB y ∧ bmul 0xD y = gmul 0xD y ∧ bmul 0x9 y = gmul 0x9 y ∧ bmul 0xE y = gmul 0xE y)
    (by decide +kernel) y

theorem invmixcol_pack (a b c d : Byte) : invmixcol (pack [a, b, c, d]) =
    pack [gmul 0xE a ^^^ gmul 0xB b ^^^ gmul 0xD c ^^^ gmul 0x9 d, gmul 0x9 a ^^^ gmul 0xE b ^^^ gmul 0xB c ^^^ gmul 0xD d,
      gmul 0xD a ^^^ gmul 0x9 b ^^^ gmul 0xE c ^^^ gmul 0xB d, gmul 0xB a ^^^ gmul 0xD b ^^^ gmul 0x9 c ^^^ gmul 0xE d] := by
  simp only [invmixcol, INCO, rotl24_pack, product, unpack_pack, bt, List.getD_cons_zero, List.getD_cons_succ,
    (bmul_eq _).1, (bmul_eq _).2.1, (bmul_eq _).2.2.1, (bmul_eq _).2.2.2]

end Verif.Aes
