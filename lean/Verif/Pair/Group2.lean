import Verif.Pair.Cert2
import Verif.Pair.Card1
import Verif.Pair.Group1
import Verif.Rom.Primes2
import Mathlib.Tactic.NormNum.Prime
/- The group of points of the twist `y² = x³ + 4 (1+i)` over the quadratic extension of the field of BLS12-381 (the points below are found by a computer search, and
checked by the kernel). -/
namespace Verif.Pair
open Verif.Ecp Verif.Ecp2 Verif.Tower Verif.Curve WeierstrassCurve

/-- the large prime factor of the cofactor, and the cofactor of the second group -/
def l381 : Nat := 402096035359507321594726366720466575392706800671181159425656785868777272553337714697862511267018014931937703598282857976535744623203249
def k381 : Nat := 305502333931268344200999753193121504214466019254188142667664032982267604182971884026507427359259977847832272839041616661285803823378372096355777062779109
/-- constants of the endomorphism -/
def u381 : Nat × Nat := (0x0, 0x1a0111ea397fe699ec02408663d4de85aa0d857d89759ad4897d29650fb85f9b409427eb4f49fffd8bfd00000000aaad)
def v381 : Nat × Nat := (0x135203e60180a68ee2e9c448d77a2cd91c3dedd930b1cf60ef396489f61eb45e304466cf3e67fa0af1ee7b04121bdea2, 0x6af0e0437ff400b6831e36d6bd17ffe48395dabc2d3435e77f76e17009241c5ee67992f72ec05f4c81084fbede3cc09)

def t2713 : (Nat × Nat) × (Nat × Nat) := ((0x753decc6fb0c8ee633ecb2c709acfeff429db5784c8c9e62db1de7ae0e0b74a6de538595f51cc1425eb55636dcec345, 0x1870ca11ce11521eb21c05017c9df3d567bef4a53350bb5b1d80992314b641c19b7c213377e70d05a692ff5787ca1f02), (0x8ce192fa564c94f61101b25e34b2e80425be3315e507dd6d2f6a2d081eecce5a66db872eed5912d8a6a576688a7d8ee, 0x44bf1439379f3d6f7b8122a612b08ec381d7cdb7cb4f630e94e2e41f5ec4c99434ef46fa39930a8213495e5deb7039c))

def t11953 : (Nat × Nat) × (Nat × Nat) := ((0x116f1f2011720114515bd122ea78ae7dc73d37b677b43d5126e88cff357da52b5d3609cccfc2e0c8d1453463946498c3, 0x46b571f45debef122fdab133af6720e6dc75293286fdb4359d336f700f4da97886e12717e40b4a41e8ae2f92095277a), (0xd8d58a8842b573b439a68a04a12eed3379299b5a8cfd4522899f5bbd727879b2adb2ed368445140c61270a300c4cbd4, 0xa66389f5b88b97498534a866062ca02f8b813fcdd78398a9965236f84044fd864521337038677df1eecf748fb9ccb14))

def t262069 : (Nat × Nat) × (Nat × Nat) := ((0x139649c1ca9ff9e4d296e54a695853366cf1a3ae67d6ee9a642f155c729e4fe2966f5f578e8c7243d76ad39b7321b418, 0x17e8eabaad384b7be74468817eff5fb2c3d5442a29e8fff889616721df7db6cf907b20799955863f5784f87eb8fd889c), (0x122238f5546712947d9b67a83c013e7bcb2e3d386357f58a04892200cd05c902cf11fc7a3c2d3452ae4fbbf58d4aaa0d, 0x319327f3049a45d4351e6292540e08f810bb0c22430c0e7f1631486fb8ae5031497c4aef48bd96c9ebe76a86b31864b))

def tl : (Nat × Nat) × (Nat × Nat) := ((0x13c162919b7b30d382a4299d4bd5ec17c79aeb6d706b9c5a3f4edbdb3997ddd7e63fca3cbff77ba3b83cdceba46cbcc7, 0xbda5a1173eecbbe12ea1e406adef283573d3738eb38fcbd706823a5a2793f69714e60d02e2a56de994ff7965984428), (0x3a73b0d00b780b65bd6f218d5855560e3bec2bfd6e2a65c46f2e4cd1b175728d2e73146ef8ac68434449568ddcaf5c4, 0x1cb60ae37a8063c8d4e5a0ed62f672e9970516a1345efb1a36fc8a7ab6a71a832e9bfd7fb221a51f75f6ffff668b061))

def t13a : (Nat × Nat) × (Nat × Nat) := ((0x19a61701f161716049ed6d9f84958f7eb57b1087b99e0f70a2c5d8ff661d8470fcf3ebca305ebb45dd02dd5cfbabf51c, 0x119c56a383ebb4fd77355260bf0819c893d77c5d285e01abdd51a76faa501f617a2c47fd420b49cbfdde8842924c403a), (0x13abf86d4266d36ed17e4754c72f84fb19124cfc37689ab193f04af535819d84c89e80cba032dfcbbc10cd4f2333f71b, 0x1da314a7a811421eedb5c65c9ffa380650d793f52ebcc3f6ae71740f1baa6ec58d1aea3aff8bfa42278849984d367fe))

def t13b : (Nat × Nat) × (Nat × Nat) := ((0x9ef7cce5e1bc5daec0905e215a48eb9c5c54c8db87f1d7538f867f91126510e8f66b3f125c1e07b66df59cc09e18e0e, 0x1379f5e4e671984461e24428fbcd84a0e6e7350c9ec0b92f669b2caa70872f5f13c0531d6690d9e9111765f72f6f1d6a), (0x19df47d282af054d45ce49bdb45ef62c2dc69fe65385df8f33b1cec0269d9bd4f763742be70e1b6f913f3584d178e1da, 0x625d9fcf91b04625830944f77d51046e8774dfcc4bbe8807ebb4698928d2490c80bdb616ce67cf39033e1015af92b5a))

def t23a : (Nat × Nat) × (Nat × Nat) := ((0xa0fab42e25f53a43ee897427d8fb79b5230b467afc618614109a10170a03a47d423ff1b5faef023d1cd7fdaae559618, 0x5d54412eea00bc0cbf94664d2f7f3a8f459dcd261a07b968250029a824c3e318de33115113f61355933f97d05086116), (0x921a484101d69ae3ff3f8b6138d66a619eb22c48d64c1bcd6110c19ba335598bf8236fa42968838674b335047dc4d61, 0x70002b8591c6dcbaf555e50a733b3522b2eafad0582403c74206c3da08ebc53ca36868350a7f21745a8b0df0fbd01e0))

def t23b : (Nat × Nat) × (Nat × Nat) := ((0x9ae04f9e32e7a4d7e1004abdbd319b7503145a986b3f5aa0d197625f2c7c4e28b17aba6004dcbdd42094270e5d34007, 0x9cbddf00955f32eec8cf28aadafe0657ea7ab2642df66cb2ae907725be49d51924bd1cdb6df3c39ec6b861273e66608), (0x13b19c4a02438fca4d68aca5297402991e3c69724489384682b1800f378d9bd21e06fd80b9c94afbd4c98c870e57868c, 0x363b18a61a5d5bd4d9bd82354e7345f4f71007fc7e74a8a8c28bb3f63766056632dc7aebe66b88aa14636823201e191))

def pts381 : List ((Nat × Nat) × (Nat × Nat)) := [t2713, t11953, t262069, tl, t13a, t13b, t23a, t23b]


section
variable {p : Nat} [hp : Fact p.Prime] [h4 : Fact (p % 4 = 3)] {B : F2 p}

/-- a point of order dividing `l` -/
def ptT (p : Nat) (b b3 x y : Nat × Nat) (l : Nat) : Bool := mulN2 p y y == addP p (mulN2 p (mulN2 p x x) x) b && zeroT p b3 x y l

theorem ptT_ns {b x y : Nat × Nat} (hb : castN2 p b = B) (h2 : NoTwoTorsion 0 B) (hc : (2 : F2 p) ≠ 0) (h : mulN2 p y y = addP p (mulN2 p (mulN2 p x x) x) b) :
    (short 0 B).Nonsingular (castN2 p x) (castN2 p y) := by
  have e := congrArg (castN2 p) h
  rw [castN2_mul, castN2_add, castN2_mul, castN2_mul, hb] at e
  exact short_ns h2 hc (by linear_combination e)

theorem ptT_sound {b b3 x y : Nat × Nat} {l : Nat} (hb : castN2 p b = B) (hb3 : castN2 p b3 = 3 * B) (h2 : NoTwoTorsion 0 B) (hc : (2 : F2 p) ≠ 0)
    (h : ptT p b b3 x y l = true) : ∃ hh : (short 0 B).Nonsingular (castN2 p x) (castN2 p y), l • Affine.Point.some _ _ hh = 0 := by
  unfold ptT at h
  simp only [Bool.and_eq_true, beq_iff_eq] at h
  have hh := ptT_ns hb h2 hc h.1
  exact ⟨hh, zeroT_sound h2 hc hb3 hh h.2⟩

/-- `k • (x, y)` has another abscissa than `x'` -/
def neT (p : Nat) (b3 x y x' : Nat × Nat) (k : Nat) : Bool :=
  let R := mulT p b3 (x, y, (1, 0)) (k.log2 + 1) k
  let c := subP p (mulN2 p x' R.2.2) R.1
  decide (¬ (c.1 % p = 0 ∧ c.2 % p = 0))

theorem neT_sound {b3 x y x' y' : Nat × Nat} {k : Nat} (hb3 : castN2 p b3 = 3 * B) (h2 : NoTwoTorsion 0 B) (hc : (2 : F2 p) ≠ 0)
    (hh : (short 0 B).Nonsingular (castN2 p x) (castN2 p y)) (hh' : (short 0 B).Nonsingular (castN2 p x') (castN2 p y')) (h : neT p b3 x y x' k = true) :
    Affine.Point.some _ _ hh' ≠ k • Affine.Point.some _ _ hh := by
  have hd := mulT_denotes h2 hc hb3 (one_denotes hh) (k.log2 + 1) k Nat.lt_log2_self
  unfold neT at h
  simp only [decide_eq_true_eq] at h
  generalize mulT p b3 (x, y, (1, 0)) (k.log2 + 1) k = R at hd h
  have hn := castN2_ne h
  intro he
  rw [← he] at hd
  obtain ⟨d1, d2, d3⟩ := hd
  have d2' : castN2 p R.1 = castN2 p x' * castN2 p R.2.2 := d2
  apply hn
  rw [castN2_sub, castN2_mul, d2', sub_self]

noncomputable instance : Fintype (F2 p) := Fintype.ofEquiv _ (QuadraticAlgebra.equivProd (-1 : ZMod p) 0).symm

theorem card_F2 : Fintype.card (F2 p) = p ^ 2 := by
  rw [Fintype.card_congr (QuadraticAlgebra.equivProd (-1 : ZMod p) 0), Fintype.card_prod, ZMod.card, pow_two]

/-- The order of the group; an additive map that kills eight points and a point of order `r` is zero. -/
theorem e2_group (h : p = p381) (hb : castN2 p (4, 4) = B) (hb3 : castN2 p (12, 12) = 3 * B) (h2 : NoTwoTorsion 0 B) (hc : (2 : F2 p) ≠ 0) (hr : r381.Prime)
    {G : (short 0 B).Point} (hG : G ≠ 0) (hG0 : r381 • G = 0) (g : (short 0 B).Point →+ (short 0 B).Point) (hgG : g G = 0)
    (hg : ∀ q ∈ pts381, ∀ hh : (short 0 B).Nonsingular (castN2 p q.1) (castN2 p q.2), g (Affine.Point.some _ _ hh) = 0) :
    Nat.card (short 0 B).Point = k381 * r381 ∧ ∀ T : (short 0 B).Point, g T = 0 := by
  let H : AddSubgroup (short 0 B).Point := g.ker
  have one : ∀ {l : Nat} {q : (Nat × Nat) × (Nat × Nat)}, l.Prime → q ∈ pts381 → ptT p (4, 4) (12, 12) q.1 q.2 l = true → l ∣ Nat.card H := fun hl hq ht => by
    obtain ⟨hh, h0⟩ := ptT_sound hb hb3 h2 hc ht
    exact prime_dvd_sub hl (some_ne_zero' hh).symm h0 (AddMonoidHom.mem_ker.2 (hg _ hq hh))
  have two : ∀ {l : Nat} {q q' : (Nat × Nat) × (Nat × Nat)}, l.Prime → q ∈ pts381 → q' ∈ pts381 → ptT p (4, 4) (12, 12) q.1 q.2 l = true →
      ptT p (4, 4) (12, 12) q'.1 q'.2 l = true → (∀ k < l, k = 0 ∨ neT p (12, 12) q.1 q.2 q'.1 k = true) → l ^ 2 ∣ Nat.card H := fun hl hq hq' ht ht' hk => by
    obtain ⟨hh, h0⟩ := ptT_sound hb hb3 h2 hc ht
    obtain ⟨hh', h0'⟩ := ptT_sound hb hb3 h2 hc ht'
    exact prime_sq_dvd_sub hl (some_ne_zero' hh).symm h0 h0' (fun k hkl => (hk k hkl).elim
      (fun e => by rw [e, zero_nsmul]; exact (some_ne_zero' hh').symm) (neT_sound hb3 h2 hc hh hh'))
      (AddMonoidHom.mem_ker.2 (hg _ hq hh)) (AddMonoidHom.mem_ker.2 (hg _ hq' hh'))

  have d2713 : 2713 ∣ Nat.card H := one (q := t2713) (by norm_num) (by simp [pts381]) (by rw [h]; decide +kernel)
  have d11953 : 11953 ∣ Nat.card H := one (q := t11953) (by norm_num) (by simp [pts381]) (by rw [h]; decide +kernel)
  have d262069 : 262069 ∣ Nat.card H := one (q := t262069) (by norm_num) (by simp [pts381]) (by rw [h]; decide +kernel)
  have dl : l381 ∣ Nat.card H := one (q := tl) Verif.Rom.bls381_h2_prime (by simp [pts381]) (by rw [h]; decide +kernel)
  have d13 : 13 ^ 2 ∣ Nat.card H := two (q := t13a) (q' := t13b) (by norm_num) (by simp [pts381]) (by simp [pts381]) (by rw [h]; decide +kernel) (by rw [h]; decide +kernel)
    (by rw [h]; decide +kernel)
  have d23 : 23 ^ 2 ∣ Nat.card H := two (q := t23a) (q' := t23b) (by norm_num) (by simp [pts381]) (by simp [pts381]) (by rw [h]; decide +kernel) (by rw [h]; decide +kernel)
    (by rw [h]; decide +kernel)
  have dr : r381 ∣ Nat.card H := prime_dvd_sub hr hG hG0 (AddMonoidHom.mem_ker.2 hgG)
  have hN : k381 * r381 ∣ Nat.card H := by
    have e1 := Nat.Coprime.mul_dvd_of_dvd_of_dvd (by decide +kernel) d13 d23
    have e2 := Nat.Coprime.mul_dvd_of_dvd_of_dvd (by decide +kernel) e1 d2713
    have e3 := Nat.Coprime.mul_dvd_of_dvd_of_dvd (by decide +kernel) e2 d11953
    have e4 := Nat.Coprime.mul_dvd_of_dvd_of_dvd (by decide +kernel) e3 d262069
    have e5 := Nat.Coprime.mul_dvd_of_dvd_of_dvd (by decide +kernel) e4 dl
    have e6 := Nat.Coprime.mul_dvd_of_dvd_of_dvd (by decide +kernel) e5 dr
    have : k381 * r381 = 13 ^ 2 * 23 ^ 2 * 2713 * 11953 * 262069 * l381 * r381 := by decide +kernel
    rw [this]; exact e6
  have hbd := card_points (A := 0) (B := B)
  rw [card_F2] at hbd
  obtain ⟨m, e⟩ := span_top hN (lt_of_le_of_lt hbd (by rw [h]; decide +kernel))
  exact ⟨e, fun T => AddMonoidHom.mem_ker.1 (m T)⟩

end
end Verif.Pair
