import Verif.Pair.Card1
import Mathlib.Tactic.NormNum.Prime
/- The group of points of `y² = x³ + 4` over the field of BLS12-381 (the points below are found by a computer search, and checked by the kernel). -/
namespace Verif.Pair
open Verif.Ecp Verif.Curve WeierstrassCurve

/-- modulus and order of BLS12-381 -/
def p381 : Nat := 0x1a0111ea397fe69a4b1ba7b6434bacd764774b84f38512bf6730d2a0f6b0f6241eabfffeb153ffffb9feffffffffaaab
def r381 : Nat := 0x73eda753299d7d483339d80809a1d80553bda402fffe5bfeffffffff00000001
/-- cofactor of the first group, and its square-root-like factor `1 - x` -/
def h381 : Nat := 0x396c8c005555e1568c00aaab0000aaab
def c381 : Nat := 0xd201000000010001
def w381 : Nat := 0x5f19672fdf76ce51ba69c6076a0f77eaddb3a93be6f89688de17d813620a00022e01fffffffefffe

def q3 : Nat × Nat := (0x0, 0x1a0111ea397fe69a4b1ba7b6434bacd764774b84f38512bf6730d2a0f6b0f6241eabfffeb153ffffb9feffffffffaaa9)

def q11 : Nat × Nat := (0x176453223f6e552ba89ef7d714f4a1af42a606054986b375606501c96069c030b9b58ecda0035a2b7fbcabc7df755577, 0x66ad6e999f120eab9207d5d1e434f360b68c699084f3e8680006e10211952be0d5ce9d52dbc224d61fefd7765c8e669)

def q10177 : Nat × Nat := (0x179edca7d759f8d0151b6b3aec803ce104dac9ae1f2ee10c4138cc92870e3868c3143b8f15fcb26a3e59f36810128597, 0x8fbc48a6ba612b3ab369025492d6820c78c1f33d280467e685292bf2aee251103939e51640abb63172520eae8ee177d)

def q859267 : Nat × Nat := (0x3b2716ba9178c2457d4aca06b4958f4f58bafe3f5eb81547a27c582e61af3bb6b4e07216f5e392789945c970a637364, 0x1913374d44bced7de6193d0917c8f97932d42b6bbf78d0095f1cf14941364a9237528fbbf0cd5e34be3b991fdcf7ac67)

def q52437899 : Nat × Nat := (0xa68113b91bc5c5e93f5f04bd3906c67a58618ec061515d0fae02f0ceb80387314f87ca04947a0fa20cab6a27a3a259d, 0x16f10657e83803f8e8af74cc09a99d8398eefb82cd2afc6eeda486f6439b8ed4043c64a64e704c7671414d238fb75692)


section
variable {p : Nat} [hp : Fact p.Prime] {A B : ZMod p}

theorem e1_group (h : p = p381) (hA : A = 0) (hB : ((4 : Nat) : ZMod p) = B) (h2 : NoTwoTorsion A B) (hr : r381.Prime) {G : (short A B).Point} (hG : G ≠ 0) (hG0 : r381 • G = 0) :
    Nat.card (short A B).Point = h381 * r381 ∧ ∀ T : (short A B).Point, (c381 * r381) • T = 0 := by
  have hc : (2 : ZMod p) ≠ 0 := by
    intro e
    have e' : ((2 : Nat) : ZMod p) = 0 := by push_cast; exact e
    have hd := (ZMod.natCast_eq_zero_iff _ _).1 e'
    have := Nat.le_of_dvd (by norm_num) hd
    rw [h] at this
    exact absurd this (by decide +kernel)
  have hw : (w381 : ZMod p) ^ 2 + w381 + 1 = 0 := by
    have hd : p ∣ w381 ^ 2 + w381 + 1 := by rw [h]; decide +kernel
    have := (ZMod.natCast_eq_zero_iff _ _).2 hd
    push_cast at this; exact this
  have hw1 : (w381 : ZMod p) ≠ 1 := by
    intro e
    have e' : ((w381 : Nat) : ZMod p) = ((1 : Nat) : ZMod p) := by rw [e, Nat.cast_one]
    rw [ZMod.natCast_eq_natCast_iff'] at e'
    rw [h] at e'
    exact absurd e' (by decide +kernel)
  have hpr : Preserves (RingHom.id (ZMod p)) (w381 : ZMod p) 1 A B := by
    refine ⟨?_, one_ne_zero, ?_, by simp [hA], by simp⟩
    · intro e; rw [e] at hw; simp at hw
    · linear_combination ((w381 : ZMod p) - 1) * hw
  have hf : ∀ T, endo hpr (endo hpr T) + endo hpr T + T = 0 := fun T => by
    have := endo_cube hw hw1 hc h2 hpr hA T
    rw [← this]; abel
  let H : AddSubgroup (short A B).Point := torsion _ (c381 * r381)
  have mem : ∀ {l : Nat} {P : (short A B).Point}, l ∣ c381 * r381 → l • P = 0 → P ∈ H := fun hd h0 => by
    obtain ⟨k, hk⟩ := hd
    rw [mem_torsion, hk, mul_nsmul, h0, nsmul_zero]
  have one : ∀ {l : Nat} {P : (short A B).Point}, l.Prime → l ∣ c381 * r381 → P ≠ 0 → l • P = 0 → l ∣ Nat.card H := fun hl hd hP h0 =>
    prime_dvd_sub hl hP h0 (mem hd h0)
  have two : ∀ {l x y : Nat}, l.Prime → l ∣ c381 * r381 → ptB p 4 x y l = true →
      (∀ k < l, l ∣ k ^ 2 + k + 1 → neB p 4 x y w381 k = true) → l ^ 2 ∣ Nat.card H := fun {l x y} hl hd hb hk => by
    obtain ⟨hh, h0⟩ := ptB_sound hA hB h2 hc hb
    have hn : Affine.Point.some _ _ hh ≠ 0 := (some_ne_zero' hh).symm
    have h1 : l • endo hpr (Affine.Point.some _ _ hh) = 0 := by rw [← map_nsmul, h0, map_zero]
    refine prime_sq_dvd_sub hl hn h0 h1 ?_ (mem hd h0) (mem hd h1)
    exact omega_indep hl hf hn h0 fun k hkl hkd => neB_sound hA hB h2 hc rfl hpr hh (hk k hkl hkd)

  have d11 : 11 ^ 2 ∣ Nat.card H := two (x := q11.1) (y := q11.2) (by norm_num) (by decide +kernel) (by rw [h]; decide +kernel)
    fun k _ hk => (noroot (by norm_num) (by norm_num) (by norm_num) hk).elim
  have d52437899 : 52437899 ^ 2 ∣ Nat.card H := two (x := q52437899.1) (y := q52437899.2) (by norm_num) (by decide +kernel) (by rw [h]; decide +kernel)
    fun k _ hk => (noroot (by norm_num) (by norm_num) (by norm_num) hk).elim
  have d10177 : 10177 ^ 2 ∣ Nat.card H := two (x := q10177.1) (y := q10177.2) (by norm_num) (by decide +kernel) (by rw [h]; decide +kernel) fun k hkl hk => by
    rcases tworoots (k1 := 4773) (by norm_num) (by decide +kernel) (by norm_num) hkl hk with e | e
    · rw [e, h]; decide +kernel
    · rw [e, h]; decide +kernel
  have d859267 : 859267 ^ 2 ∣ Nat.card H := two (x := q859267.1) (y := q859267.2) (by norm_num) (by decide +kernel) (by rw [h]; decide +kernel) fun k hkl hk => by
    rcases tworoots (k1 := 119571) (by norm_num) (by decide +kernel) (by norm_num) hkl hk with e | e
    · rw [e, h]; decide +kernel
    · rw [e, h]; decide +kernel
  have d3 : 3 ∣ Nat.card H := by
    obtain ⟨hh, h0⟩ := ptB_sound (x := q3.1) (y := q3.2) (l := 3) hA hB h2 hc (by rw [h]; decide +kernel)
    exact one (by norm_num) (by decide +kernel) (some_ne_zero' hh).symm h0
  have dr : r381 ∣ Nat.card H := one hr (Dvd.intro_left _ rfl) hG hG0
  have hN : h381 * r381 ∣ Nat.card H := by
    have e1 := Nat.Coprime.mul_dvd_of_dvd_of_dvd (by decide +kernel) d11 d52437899
    have e2 := Nat.Coprime.mul_dvd_of_dvd_of_dvd (by decide +kernel) e1 d10177
    have e3 := Nat.Coprime.mul_dvd_of_dvd_of_dvd (by decide +kernel) e2 d859267
    have e4 := Nat.Coprime.mul_dvd_of_dvd_of_dvd (by decide +kernel) e3 d3
    have e5 := Nat.Coprime.mul_dvd_of_dvd_of_dvd (by decide +kernel) e4 dr
    have : h381 * r381 = 11 ^ 2 * 52437899 ^ 2 * 10177 ^ 2 * 859267 ^ 2 * 3 * r381 := by decide +kernel
    rw [this]; exact e5
  have hb := card_points (A := A) (B := B)
  rw [ZMod.card] at hb
  obtain ⟨m, e⟩ := span_top hN (lt_of_le_of_lt hb (by rw [h]; decide +kernel))
  exact ⟨e, fun T => mem_torsion.1 (m T)⟩

end
end Verif.Pair
