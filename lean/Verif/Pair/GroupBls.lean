import Verif.Pair.Card1
import Verif.Props.PrimeOrder
import Verif.Rom.Primes
/-
The number of points of the curves `y² = x³ + B` of BLS383 and BLS461 over the prime field (the points below are found by a computer search, and checked by the kernel).
-/
namespace Verif.Pair
open Verif.Ecp Verif.Curve Verif.Props WeierstrassCurve

/-- modulus, order and cofactor of BLS383, a cube root of unity, a point of order three -/
def p383 : Nat := 0x5565569564ab6eb5a06dadc41fea9284a0ad462cf365a511ac31b801696124f47a8c3f298a64852bda371d6485aab0ab
def r383 : Nat := 0x1002001800c00b809c04401c81698b381de05f095a120d3973b2099ebfebc0001
def h383 : Nat := 0x555aaac000aabbffb550556155169eab
def w383 : Nat := 0x10028028019014a10405900f8178833b4c9df88b7348281b2be6648a7e7851f58fd73b61456ffee01
def t383 : Nat × Nat := (0x0, 0x247882b3424c580d8ba99b5809ec95de0b0ed66c00658b36379deb429f00de964a6daf55fac1db5c17ca6b076c3b1ac5)
/-- prime factors of the cofactor, each with a point of that order, and a primitive cube root of unity (0 if there is none) -/
def l383 : List (Nat × Nat × Nat × Nat) := [(89, 0x1052abbd65165a15f7457958bac155c1c0d6a8addec379f36e1bd6da4915d9b17447e9f8dc4f200b959a4f6ea4302b48, 0x51d893ffc5363e01647245b78b2a31a8f9d8571ed4466e9ecc1eb91bd24acbfca43f1ce4136b91289e79781fbe1d5f1, 0), (479, 0x2acffa1382757a4b5e8dad434aa3778b62b51b6749360d13c0d880c03ebcd3021119ce91b0473c4e87f5d38e4fa14d6, 0x510b5193596fa6c293f002c5562b13b866a96987741776f8e9b32c49097be6c66acee04f14eca0583b8de5312385a3f6, 0), (144253367061059, 0x2d509a754acca94efdff0a1dc2e1c452c026b5d52334ecb8a3deb3ef02ae3efb85f2fea1782a9ea7799265da40b87edd, 0x3e2265402e3ee665391ee363e7df13c8fcedc63e9d8a16daf2e3bac26406b33690b819b8c4cd49a22cb2b2f5fd9aa81, 0)]

/-- modulus, order and cofactor of BLS461, a cube root of unity, a point of order three -/
def p461 : Nat := 0x15555545554d5a555a55d69414935fbd6f1e32d8bacca47b14848b42a8dffa5c1cc00f26aa91557f00400020000555554aaaaaac0000aaaaaaab
def r461 : Nat := 0xffffff7fffc0180017fe05fd000e801fc017ffc80001100007fefffeffffc0000000000000001
def h461 : Nat := 0x1555554ffffd55aaab01556aaa7fffeaaaaaaab
def w461 : Nat := 0x15555545554d5a555a53d69415d3605d1f1de2b2a6dbbbe29f414e4e316ee4e2af085260a61f54ba813000b0001d55556aaaaaa7fffeaaaaaaac
def t461 : Nat × Nat := (0x0, 0x3)
/-- prime factors of the cofactor, each with a point of that order, and a primitive cube root of unity (0 if there is none) -/
def l461 : List (Nat × Nat × Nat × Nat) := [(7, 0x74bec9b8ebf8f7796d723de616b6fbb96b99a59b102f8c448fee324cd5b38495c1efc54be3e52c7fab3e4bc59b1ff2881b42397870464d6d93d, 0x8ddb2a151f049be21d92dde37ce539449ac157afbccdae21cb360d2a83dbb5ffc54dfc6cb23a1be7a69afc195ee7a67906930ce61bb657395fb, 4), (7195986967900959526717, 0x656f3a979c1aee03291bf2d9d0143d64f68d87bdb6dd2c8b1385db8331510208f1462b499041d179eafa020d5c95196a18ffee053020401d68, 0x6f407025a08fc39fb51274f86a8779b89433e01c6f37ccef25100c44baf41ec48b3641e2b8a1a7175fdd6fe11285fb5617330a4ad6a52a619df, 2063545030531864450023)]

/-- The check of one line of the table: the point `(x, y)` is killed by `l`, and its image under `(x, y) ↦ (w x, y)` is not one of its multiples. -/
def lineB (p B w : Nat) (e : Nat × Nat × Nat × Nat) : Bool :=
  ptB p B e.2.1 e.2.2.1 e.1 &&
  (decide (e.1 % 3 = 2 ∧ e.1 ≠ 2) || (decide (e.2.2.2 < e.1 ∧ e.1 ∣ e.2.2.2 ^ 2 + e.2.2.2 + 1) && neB p B e.2.1 e.2.2.1 w e.2.2.2 && neB p B e.2.1 e.2.2.1 w (e.1 - 1 - e.2.2.2)))

/-- product of the squares of the primes, and the primes are different -/
def sqs : List (Nat × Nat × Nat × Nat) → Nat
  | [] => 1
  | e :: l => e.1 ^ 2 * sqs l

def coB : List (Nat × Nat × Nat × Nat) → Bool
  | [] => true
  | e :: l => Nat.gcd (e.1 ^ 2) (sqs l) == 1 && coB l

theorem sqs_dvd {N : Nat} : ∀ l : List (Nat × Nat × Nat × Nat), coB l = true → (∀ e ∈ l, e.1 ^ 2 ∣ N) → sqs l ∣ N
  | [], _, _ => one_dvd _
  | e :: l, hc, h => by
    unfold coB at hc
    rw [Bool.and_eq_true, beq_iff_eq] at hc
    exact Nat.Coprime.mul_dvd_of_dvd_of_dvd hc.1 (h e (by simp)) (sqs_dvd l hc.2 fun e he => h e (by simp [he]))

/-- the whole check -/
def groupB (p B r h w : Nat) (t : Nat × Nat) (L : List (Nat × Nat × Nat × Nat)) : Bool :=
  decide (2 < p ∧ (w ^ 2 + w + 1) % p = 0 ∧ w < p ∧ w ≠ 1 ∧ Nat.gcd (3 * sqs L) r = 1 ∧ Nat.gcd 3 (sqs L) = 1 ∧ h = 3 * sqs L ∧ 2 * (p + 1) < 3 * (h * r)) &&
  coB L && ptB p B t.1 t.2 3 && L.all (lineB p B w)

section
variable {p : Nat} [hp : Fact p.Prime] {A B' : ZMod p}

theorem group_bls {B r h w : Nat} {t : Nat × Nat} {L : List (Nat × Nat × Nat × Nat)} (hA : A = 0) (hB : (B : ZMod p) = B') (h2 : NoTwoTorsion A B') (hr : r.Prime)
    {G : (short A B').Point} (hG : G ≠ 0) (hG0 : r • G = 0) (hL : ∀ e ∈ L, e.1.Prime) (hb : groupB p B r h w t L = true) : Nat.card (short A B').Point = h * r := by
  unfold groupB at hb
  simp only [Bool.and_eq_true, decide_eq_true_eq] at hb
  obtain ⟨⟨⟨⟨p2, w0, wp, w1, g1, g2, eh, hlt⟩, hco⟩, ht⟩, hall⟩ := hb
  have hc : (2 : ZMod p) ≠ 0 := by
    intro e
    have e' : ((2 : Nat) : ZMod p) = 0 := by push_cast; exact e
    have := Nat.le_of_dvd (by norm_num) ((ZMod.natCast_eq_zero_iff _ _).1 e')
    omega
  have hw : (w : ZMod p) ^ 2 + w + 1 = 0 := by
    have := (ZMod.natCast_eq_zero_iff _ _).2 (Nat.dvd_of_mod_eq_zero w0)
    push_cast at this; exact this
  have hw1 : (w : ZMod p) ≠ 1 := by
    intro e
    have e' : ((w : Nat) : ZMod p) = ((1 : Nat) : ZMod p) := by rw [e, Nat.cast_one]
    rw [ZMod.natCast_eq_natCast_iff', Nat.mod_eq_of_lt wp, Nat.mod_eq_of_lt (by omega)] at e'
    exact w1 e'
  have hpr : Preserves (RingHom.id (ZMod p)) (w : ZMod p) 1 A B' := by
    refine ⟨?_, one_ne_zero, ?_, by simp [hA], by simp⟩
    · intro e; rw [e] at hw; simp at hw
    · linear_combination ((w : ZMod p) - 1) * hw
  have hf : ∀ T, endo hpr (endo hpr T) + endo hpr T + T = 0 := fun T => by
    have := endo_cube hw hw1 hc h2 hpr hA T
    rw [← this]; abel
  have ct : Nat.card (⊤ : AddSubgroup (short A B').Point) = Nat.card (short A B').Point := AddSubgroup.card_top
  have d : ∀ e ∈ L, e.1 ^ 2 ∣ Nat.card (short A B').Point := fun e he => by
    have hl := hL e he
    have hk := List.all_eq_true.1 hall e he
    unfold lineB at hk
    simp only [Bool.and_eq_true, Bool.or_eq_true, decide_eq_true_eq] at hk
    obtain ⟨hh, h0⟩ := ptB_sound hA hB h2 hc hk.1
    have hn : Affine.Point.some _ _ hh ≠ 0 := (some_ne_zero' hh).symm
    have h1 : e.1 • endo hpr (Affine.Point.some _ _ hh) = 0 := by rw [← map_nsmul, h0, map_zero]
    rw [← ct]
    refine prime_sq_dvd_sub hl hn h0 h1 ?_ (AddSubgroup.mem_top _) (AddSubgroup.mem_top _)
    refine omega_indep hl hf hn h0 fun k hkl hkd => ?_
    rcases hk.2 with ⟨a, b⟩ | ⟨⟨⟨a, b⟩, c⟩, d⟩
    · exact (noroot hl a b hkd).elim
    · rcases tworoots hl b a hkl hkd with rfl | rfl
      · exact neB_sound hA hB h2 hc rfl hpr hh c
      · exact neB_sound hA hB h2 hc rfl hpr hh d
  have d3 : 3 ∣ Nat.card (short A B').Point := by
    obtain ⟨hh, h0⟩ := ptB_sound hA hB h2 hc ht
    rw [← ct]
    exact prime_dvd_sub (by norm_num) (some_ne_zero' hh).symm h0 (AddSubgroup.mem_top _)
  have dr : r ∣ Nat.card (short A B').Point := by
    rw [← ct]
    exact prime_dvd_sub hr hG hG0 (AddSubgroup.mem_top _)
  have hN : h * r ∣ Nat.card (short A B').Point := by
    rw [eh]
    exact Nat.Coprime.mul_dvd_of_dvd_of_dvd g1 (Nat.Coprime.mul_dvd_of_dvd_of_dvd g2 d3 (sqs_dvd L hco d)) dr
  have hle := card_points (A := A) (B := B')
  rw [ZMod.card] at hle
  have hpos : 0 < Nat.card (short A B').Point := Nat.card_pos
  have hodd := odd_card h2 hc
  obtain ⟨k, hk⟩ := hN
  rw [hk] at hle hpos hodd ⊢
  have k3 : k < 3 := by
    by_contra c
    have : h * r * 3 ≤ h * r * k := Nat.mul_le_mul_left _ (by omega)
    omega
  interval_cases k
  · omega
  · omega
  · exact absurd (Dvd.intro_left (h * r) rfl) hodd

end

theorem l383_prime : ∀ e ∈ l383, e.1.Prime := by
  intro e he
  simp only [l383, List.mem_cons, List.not_mem_nil, or_false] at he
  rcases he with rfl | rfl | rfl
  · norm_num
  · norm_num
  · exact Rom.prime_144253367061059

theorem l461_prime : ∀ e ∈ l461, e.1.Prime := by
  intro e he
  simp only [l461, List.mem_cons, List.not_mem_nil, or_false] at he
  rcases he with rfl | rfl
  · norm_num
  · exact Rom.prime_7195986967900959526717

theorem group383 : groupB p383 15 r383 h383 w383 t383 l383 = true := by decide +kernel
theorem group461 : groupB p461 9 r461 h461 w461 t461 l461 = true := by decide +kernel

end Verif.Pair
