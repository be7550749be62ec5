import Verif.Sha2.Model
import Verif.Spec.Sha2
import Verif.Common.Bytes
/- Helper lemmas: the SHA-2 model refines the FIPS 180-4 specification. -/
namespace Verif.Sha2
open Spec (Byte)
open Spec (beNat beBytes pieces)
open Spec.Sha2 (Variant)

variable {w : Nat}

/-- The parameters of the code agree with the constants of the standard. -/
structure Agrees (P : Params w) (V : Variant w) : Prop where
  hw : w = 32 ∨ w = 64
  rounds : P.rounds = V.rounds
  rounds16 : 64 ≤ P.rounds
  sig0 : P.sig0 = V.bigS0
  sig1 : P.sig1 = V.bigS1
  theta0 : P.theta0 = V.smallS0
  theta1 : P.theta1 = V.smallS1
  rot : ∀ n ∈ [P.sig0.1, P.sig0.2.1, P.sig0.2.2, P.sig1.1, P.sig1.2.1, P.sig1.2.2,
    P.theta0.1, P.theta0.2.1, P.theta1.1, P.theta1.2.1], n < w
  iv : P.iv = V.iv
  ivLen : P.iv.length = 8
  k : P.k = Spec.Sha2.roundK V
  kLen : P.k.length = P.rounds
  out : P.hashBytes = V.outBytes
  outLe : P.hashBytes ≤ w

theorem s_eq_rotr (n : Nat) (x : BitVec w) (hn : n < w) : s n x = Spec.Sha2.rotr n x := by
  unfold s Spec.Sha2.rotr
  rw [BitVec.rotateRight_eq_rotateRightAux_of_lt hn]
  rfl

section
variable {P : Params w} {V : Variant w}

theorem sig0_eq (A : Agrees P V) (x : BitVec w) : sig0 P x = Spec.Sha2.bigSigma V.bigS0 x := by
  have := A.rot
  simp only [List.mem_cons, List.not_mem_nil, or_false, forall_eq_or_imp, forall_eq] at this
  simp only [sig0, Spec.Sha2.bigSigma, ← A.sig0]
  rw [s_eq_rotr _ _ (by omega), s_eq_rotr _ _ (by omega), s_eq_rotr _ _ (by omega)]

theorem sig1_eq (A : Agrees P V) (x : BitVec w) : sig1 P x = Spec.Sha2.bigSigma V.bigS1 x := by
  have := A.rot
  simp only [List.mem_cons, List.not_mem_nil, or_false, forall_eq_or_imp, forall_eq] at this
  simp only [sig1, Spec.Sha2.bigSigma, ← A.sig1]
  rw [s_eq_rotr _ _ (by omega), s_eq_rotr _ _ (by omega), s_eq_rotr _ _ (by omega)]

theorem theta0_eq (A : Agrees P V) (x : BitVec w) : theta0 P x = Spec.Sha2.smallSigma V.smallS0 x := by
  have := A.rot
  simp only [List.mem_cons, List.not_mem_nil, or_false, forall_eq_or_imp, forall_eq] at this
  simp only [theta0, Spec.Sha2.smallSigma, ← A.theta0, r]
  rw [s_eq_rotr _ _ (by omega), s_eq_rotr _ _ (by omega)]

theorem theta1_eq (A : Agrees P V) (x : BitVec w) : theta1 P x = Spec.Sha2.smallSigma V.smallS1 x := by
  have := A.rot
  simp only [List.mem_cons, List.not_mem_nil, or_false, forall_eq_or_imp, forall_eq] at this
  simp only [theta1, Spec.Sha2.smallSigma, ← A.theta1, r]
  rw [s_eq_rotr _ _ (by omega), s_eq_rotr _ _ (by omega)]

theorem repeat_extend_length (V : Variant w) (n : Nat) (M : List (BitVec w)) :
    (Nat.repeat (Spec.Sha2.extend V) n M).length = M.length + n := by
  induction n with
  | zero => rfl
  | succ n ih => simp [Nat.repeat, Spec.Sha2.extend, ih]; omega

theorem sched_foldl (A : Agrees P V) (wv : List (BitVec w)) (n : Nat) (h : 16 + n ≤ wv.length) :
    (List.range' 16 n).foldl (schedStep P) wv
      = Nat.repeat (Spec.Sha2.extend V) n (wv.take 16) ++ wv.drop (16 + n) := by
  induction n with
  | zero => simp [Nat.repeat]
  | succ n ih =>
    rw [List.range'_1_concat, List.foldl_append, ih (by omega)]
    simp only [List.foldl_cons, List.foldl_nil, Nat.repeat]
    have hl : (Nat.repeat (Spec.Sha2.extend V) n (wv.take 16)).length = 16 + n := by
      rw [repeat_extend_length]; simp; omega
    generalize Nat.repeat (Spec.Sha2.extend V) n (wv.take 16) = A' at hl
    unfold schedStep Spec.Sha2.extend
    have hd : ∀ i, i < 16 + n → (A' ++ wv.drop (16 + n)).getD i 0 = A'.getD i 0 := by
      intro i hi
      rw [List.getD_eq_getElem?_getD, List.getElem?_append_left (by omega), ← List.getD_eq_getElem?_getD]
    rw [hd _ (by omega), hd _ (by omega), hd _ (by omega), hd _ (by omega)]
    rw [theta0_eq A, theta1_eq A, hl]
    rw [List.set_append_right _ _ (by omega), hl, Nat.sub_self]
    obtain ⟨x, hx⟩ : ∃ x, wv.drop (16 + n) = x :: wv.drop (16 + (n + 1)) := by
      refine ⟨wv[16 + n], ?_⟩
      rw [List.drop_eq_getElem_cons (by omega)]; rfl
    rw [hx, List.set_cons_zero, List.append_assoc]; rfl

/-- the eight working variables as a list -/
def Work.toL (v : Work w) : List (BitVec w) := [v.a, v.b, v.c, v.d, v.e, v.f, v.g, v.hh]

theorem round_toL (A : Agrees P V) (v : Work w) (wv : List (BitVec w)) (j : Nat) :
    (roundStep P wv v j).toL = Spec.Sha2.round V v.toL (P.k.getD j 0, wv.getD j 0) := by
  simp only [roundStep, Work.toL, Spec.Sha2.round, sig0_eq A, sig1_eq A]
  rfl

theorem rounds_toL (A : Agrees P V) (wv : List (BitVec w)) (js : List Nat) (v : Work w) :
    (js.foldl (roundStep P wv) v).toL
      = (js.map fun j => (P.k.getD j 0, wv.getD j 0)).foldl (Spec.Sha2.round V) v.toL := by
  induction js generalizing v with
  | nil => rfl
  | cons j js ih => simp only [List.foldl_cons, List.map_cons, ih, round_toL A]

theorem map_range_getD_zip {α β : Type} (a0 : α) (b0 : β) (k : List α) (l : List β) (n : Nat)
    (hk : k.length = n) (hl : l.length = n) :
    (List.range n).map (fun j => (k.getD j a0, l.getD j b0)) = k.zip l := by
  apply List.ext_getElem
  · simp [hk, hl]
  · intro i h1 h2
    simp at h1
    simp [List.getD_eq_getElem?_getD, hk, hl, h1]

theorem list8 (h : List (BitVec w)) (hl : h.length = 8) :
    h = [h.getD 0 0, h.getD 1 0, h.getD 2 0, h.getD 3 0, h.getD 4 0, h.getD 5 0, h.getD 6 0, h.getD 7 0] := by
  match h, hl with
  | [a, b, c, d, e, f, g, i], _ => rfl

theorem transform_h (A : Agrees P V) (st : St w) (hh : st.h.length = 8) (hwl : st.w.length = P.rounds) :
    (transform P st).h = Spec.Sha2.compress V st.h (st.w.take 16) := by
  have hr := A.rounds16
  have hs := sched_foldl A st.w (P.rounds - 16) (by omega)
  rw [show 16 + (P.rounds - 16) = P.rounds by omega, ← hwl, List.drop_length, List.append_nil, hwl] at hs
  simp only [transform, hs]
  unfold Spec.Sha2.compress Spec.Sha2.schedule
  rw [← A.rounds, ← A.k]
  have hl : (Nat.repeat (Spec.Sha2.extend V) (P.rounds - 16) (st.w.take 16)).length = P.rounds := by
    rw [repeat_extend_length]; simp; omega
  generalize Nat.repeat (Spec.Sha2.extend V) (P.rounds - 16) (st.w.take 16) = W at hl
  rw [← map_range_getD_zip (0 : BitVec w) (0 : BitVec w) P.k W P.rounds A.kLen hl]
  have h8 := list8 st.h hh
  generalize hv : (⟨st.h.getD 0 0, st.h.getD 1 0, st.h.getD 2 0, st.h.getD 3 0, st.h.getD 4 0,
    st.h.getD 5 0, st.h.getD 6 0, st.h.getD 7 0⟩ : Work w) = v0
  have hv0 : st.h = v0.toL := by rw [h8, ← hv]; rfl
  rw [hv0, ← rounds_toL A]
  simp only [← hv, Work.toL, List.zipWith_cons_cons, List.zipWith_nil_left]
  rfl

theorem transform_w_length (A : Agrees P V) (st : St w) (hwl : st.w.length = P.rounds) :
    (transform P st).w.length = P.rounds := by
  have hr := A.rounds16
  simp only [transform]
  rw [sched_foldl A st.w _ (by omega)]
  simp [repeat_extend_length]; omega

theorem transform_h_length (st : St w) : (transform P st).h.length = 8 := by
  simp [transform]

@[simp] theorem transform_length0 (st : St w) : (transform P st).length0 = st.length0 := rfl
@[simp] theorem transform_length1 (st : St w) : (transform P st).length1 = st.length1 := rfl

end

/-! ### bytes into words -/

theorem pushByte_toNat (hw : 8 ≤ w) (x : BitVec w) (b : Byte) :
    (pushByte x b).toNat = (x.toNat * 256 + b.toNat) % 2 ^ w := by
  have hb : b.toNat < 256 := b.isLt
  have hb2 : (2 : Nat) ^ 8 ≤ 2 ^ w := Nat.pow_le_pow_right (by omega) hw
  have h255 : b &&& 0xFF#8 = b := by
    have : (0xFF#8 : BitVec 8) = BitVec.allOnes 8 := rfl
    rw [this, BitVec.and_allOnes]
  unfold pushByte
  rw [h255, BitVec.toNat_or, BitVec.toNat_shiftLeft, BitVec.toNat_setWidth,
    Nat.mod_eq_of_lt (a := b.toNat) (by omega)]
  have e : 2 ^ w = 2 ^ 8 * 2 ^ (w - 8) := by rw [← Nat.pow_add]; congr 1; omega
  have h1 : (x.toNat <<< 8) % 2 ^ w = (x.toNat % 2 ^ (w - 8)) <<< 8 := by
    rw [Nat.shiftLeft_eq, Nat.shiftLeft_eq, e, Nat.mul_comm, Nat.mul_mod_mul_left, Nat.mul_comm]
  rw [h1, ← Nat.shiftLeft_add_eq_or_of_lt (by omega), Nat.shiftLeft_eq]
  have h2 : (x.toNat * 256 + b.toNat) % 2 ^ w
      = ((x.toNat * 256) % 2 ^ w + b.toNat) % 2 ^ w := by
    rw [Nat.mod_add_mod]
  have h3 : (x.toNat * 256) % 2 ^ w = x.toNat % 2 ^ (w - 8) * 2 ^ 8 := by
    rw [e, Nat.mul_comm, show (256 : Nat) = 2 ^ 8 from rfl, Nat.mul_mod_mul_left, Nat.mul_comm]
  rw [h2, h3]
  have h4 : x.toNat % 2 ^ (w - 8) < 2 ^ (w - 8) := Nat.mod_lt _ (Nat.two_pow_pos _)
  have h5 : x.toNat % 2 ^ (w - 8) * 2 ^ 8 + b.toNat < 2 ^ w := by
    rw [e]
    have : (x.toNat % 2 ^ (w - 8) + 1) * 2 ^ 8 ≤ 2 ^ (w - 8) * 2 ^ 8 := Nat.mul_le_mul_right _ h4
    rw [Nat.mul_comm (2 ^ 8)]
    omega
  rw [Nat.mod_eq_of_lt h5]

theorem foldl_pushByte_toNat (hw : 8 ≤ w) (bs : List Byte) (x : BitVec w) :
    (bs.foldl pushByte x).toNat = (x.toNat * 256 ^ bs.length + beNat bs) % 2 ^ w := by
  induction bs generalizing x with
  | nil => simp [Nat.mod_eq_of_lt x.isLt]
  | cons b bs ih =>
    rw [List.foldl_cons, ih, pushByte_toNat hw, Spec.beNat_cons, List.length_cons, Nat.pow_succ]
    rw [Nat.add_mod, Nat.mul_mod, Nat.mod_mod, ← Nat.mul_mod, ← Nat.add_mod, Nat.add_mul,
      Nat.mul_assoc, Nat.mul_comm 256 (256 ^ bs.length), Nat.add_assoc]

/-- a full word does not depend on its previous contents -/
theorem foldl_pushByte_full (hw : w = 32 ∨ w = 64) (bs : List Byte) (x : BitVec w)
    (hl : bs.length = w / 8) : bs.foldl pushByte x = BitVec.ofNat w (beNat bs) := by
  apply BitVec.eq_of_toNat_eq
  rw [foldl_pushByte_toNat (by omega), BitVec.toNat_ofNat, hl]
  have : (256 : Nat) ^ (w / 8) = 2 ^ w := by
    rcases hw with rfl | rfl <;> rfl
  rw [this, Nat.mul_comm, Nat.mul_add_mod]

end Verif.Sha2
