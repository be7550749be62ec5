import Verif.Gt.Curve
import Verif.Bls.G2
/- `FP12::tobytes` and `FP12::frombytes`. -/
namespace Verif.Gt
open Verif.Big Verif.Fp Verif.Prog Verif.Tower Verif.Pair Verif.Ecp2 Verif.Props Verif.Rom Verif.Bls Spec
set_option linter.unusedVariables false
set_option linter.unusedSectionVars false
set_option exponentiation.threshold 10000

/-- `FP12::tobytes` (fp12.rs:847-903): the buffer after the call; the indexing panics on a buffer that is too short. -/
def tobytes {C : Nat} (K : PairRom C) (x : Fp12 C) (buf : List (BitVec 8)) : Option (List (BitVec 8)) :=
  let mb := K.rom.modbytes
  let by' := fun v => toBytes K.rom.P.b mb v
  let two := fun v : Fp2 C => by' (Fp2.geta K.rom.P v) ++ by' (Fp2.getb K.rom.P v)
  if buf.length < 12 * mb then none
  else some (two x.a.a ++ two x.a.b ++ (two x.b.a ++ two x.b.b) ++ (two x.c.a ++ two x.c.b) ++ buf.drop (12 * mb))

/-- `FP12::frombytes` (fp12.rs:774-844); the indexing panics on a slice that is too short. `new_fp4s` (fp12.rs:80-87) tags the result as dense. -/
def frombytes {C : Nat} (K : PairRom C) (w : List (BitVec 8)) : Option (Fp12 C) :=
  let mb := K.rom.modbytes
  let rd := fun i => fromBytes (C := C) K.rom.P.b K.rom.P.n mb ((w.drop (i * mb)).take mb)
  let two := fun i => Fp2.newBigs K.rom.P (rd i) (rd (i + 1))
  if w.length < 12 * mb then none
  else some ⟨⟨two 0, two 2⟩, ⟨two 4, two 6⟩, ⟨two 8, two 10⟩, tDENSE⟩

/-- sizes of the encoding -/
def bytesB {C : Nat} (K : PairRom C) : Bool :=
  decide (8 * K.rom.modbytes ≤ K.rom.P.b * K.rom.P.n) && decide (K.rom.p < 256 ^ K.rom.modbytes) && decide (0 < K.rom.modbytes)

theorem bytesB64 : gls64.all (fun K => bytesB K.pair) = true := by decide +kernel
theorem bytesB32 : gls32.all (fun K => bytesB K.pair) = true := by decide +kernel

/-- a block of an encoding -/
theorem flat_block (mb : Nat) (rest : List (BitVec 8)) : ∀ (L : List Nat) (i : Nat) (hi : i < L.length),
    ((L.flatMap (beBytes mb) ++ rest).drop (i * mb)).take mb = beBytes mb L[i] := by
  intro L
  induction L with
  | nil => intro i hi; simp at hi
  | cons a L ih =>
    intro i hi
    cases i with
    | zero =>
      rw [List.flatMap_cons, List.append_assoc, Nat.zero_mul, List.drop_zero, List.take_append_of_le_length (by rw [Spec.beBytes_length]), List.take_of_length_le (by rw [Spec.beBytes_length])]
      rfl
    | succ i =>
      rw [List.flatMap_cons, List.append_assoc, Nat.succ_mul, Nat.add_comm, ← List.drop_drop, List.drop_left' (by rw [Spec.beBytes_length])]
      exact ih i (by simpa using hi)

theorem flat_length (mb : Nat) (L : List Nat) : (L.flatMap (beBytes mb)).length = L.length * mb := by
  induction L with
  | nil => simp
  | cons a L ih => rw [List.flatMap_cons, List.length_append, Spec.beBytes_length, ih, List.length_cons]; ring

theorem enc12_length {p : Nat} (mb : Nat) (v : F12 p) : (enc12 mb v).length = 12 * mb := flat_length mb _

/-- the blocks of a string, printed again, are the string -/
theorem flat_blocks (mb : Nat) : ∀ (k : Nat) (w : List (BitVec 8)), k * mb ≤ w.length →
    ((List.range k).map fun i => beNat ((w.drop (i * mb)).take mb)).flatMap (beBytes mb) = w.take (k * mb) := by
  intro k
  induction k with
  | zero => intro w _; simp
  | succ k ih =>
    intro w hw
    rw [Nat.succ_mul] at hw
    rw [List.range_succ, List.map_append, List.flatMap_append, ih w (by omega)]
    have hl : ((w.drop (k * mb)).take mb).length = mb := by rw [List.length_take, List.length_drop]; omega
    have := Spec.beBytes_beNat ((w.drop (k * mb)).take mb)
    rw [hl] at this
    simp only [List.map_cons, List.map_nil, List.flatMap_cons, List.flatMap_nil, List.append_nil]
    rw [this, Nat.succ_mul, List.take_add]

variable {C : Nat} {K : PairRom C} [hp : Fact K.rom.p.Prime] [h4 : Fact (K.rom.p % 4 = 3)]

theorem bytes_least (h : TowerOk K.rom.P K.rom.p) {L : Nat} {a : Fp C} {v : ZMod K.rom.p} (ha : Std K.rom.P K.rom.p L a v) (hl : Clean K.rom.P K.rom.p a) :
    toBytes K.rom.P.b K.rom.modbytes (redc K.rom.P a) = beBytes K.rom.modbytes v.val := by
  have hn := h.arith.hn
  exact Ecp.toBytes_rep (K := K.rom) h.toConsts (redc_clean h (by omega) (by omega) ha.1 (Or.inr hl))

/-- every zero component is held as the number 0 -/
def Tidy2 (K : PairRom C) (x : Fp2 C) : Prop := Clean K.rom.P K.rom.p x.a ∧ Clean K.rom.P K.rom.p x.b
def Tidy4 (K : PairRom C) (x : Fp4 C) : Prop := Tidy2 K x.a ∧ Tidy2 K x.b
def Tidy12 (K : PairRom C) (x : Fp12 C) : Prop := Tidy4 K x.a ∧ Tidy4 K x.b ∧ Tidy4 K x.c
theorem Tidy2.of (h : TowerOk K.rom.P K.rom.p) {x : Fp2 C} (hx : Least2 K.rom.P K.rom.p x) : Tidy2 K x := ⟨clean_lt h hx.1.1 hx.1.2, clean_lt h hx.2.1 hx.2.2⟩
theorem Tidy4.of (h : TowerOk K.rom.P K.rom.p) {x : Fp4 C} (hx : Least4 K.rom.P K.rom.p x) : Tidy4 K x := ⟨.of h hx.1, .of h hx.2⟩
theorem Tidy12.of (h : TowerOk K.rom.P K.rom.p) {x : Fp12 C} {v : F12 K.rom.p} (hx : Canon12 K.rom.P K.rom.p x v) : Tidy12 K x := ⟨.of h hx.2.1, .of h hx.2.2.1, .of h hx.2.2.2⟩

theorem bytes2_ok (h : TowerOk K.rom.P K.rom.p) {L : Nat} {x : Fp2 C} {v : F2 K.rom.p} (hx : Std2 K.rom.P K.rom.p L x v) (hl : Tidy2 K x) :
    toBytes K.rom.P.b K.rom.modbytes (Fp2.geta K.rom.P x) ++ toBytes K.rom.P.b K.rom.modbytes (Fp2.getb K.rom.P x) =
      beBytes K.rom.modbytes v.re.val ++ beBytes K.rom.modbytes v.im.val := by
  unfold Fp2.geta Fp2.getb
  rw [bytes_least h hx.1 hl.1, bytes_least h hx.2 hl.2]

/-- `FP12::tobytes` -/
theorem tobytes_ok (h : TowerOk K.rom.P K.rom.p) {L : Nat} {x : Fp12 C} {v : F12 K.rom.p} (hx : Std12 K.rom.P K.rom.p L x v) (hl : Tidy12 K x) {buf : List (BitVec 8)}
    (hb : 12 * K.rom.modbytes ≤ buf.length) : tobytes K x buf = some (enc12 K.rom.modbytes v ++ buf.drop (12 * K.rom.modbytes)) := by
  unfold tobytes
  dsimp only
  rw [if_neg (by omega), bytes2_ok h hx.1.1 hl.1.1, bytes2_ok h hx.1.2 hl.1.2, bytes2_ok h hx.2.1.1 hl.2.1.1, bytes2_ok h hx.2.1.2 hl.2.1.2, bytes2_ok h hx.2.2.1 hl.2.2.1,
    bytes2_ok h hx.2.2.2 hl.2.2.2]
  unfold enc12 coeffs
  simp only [List.flatMap_cons, List.flatMap_nil, List.append_nil, List.append_assoc]

omit hp h4 in
theorem tobytes_short {x : Fp12 C} {buf : List (BitVec 8)} (hb : buf.length < 12 * K.rom.modbytes) : tobytes K x buf = none := by
  unfold tobytes
  dsimp only
  rw [if_pos hb]

omit hp h4 in
theorem frombytes_short {w : List (BitVec 8)} (hb : w.length < 12 * K.rom.modbytes) : frombytes K w = none := by
  unfold frombytes
  dsimp only
  rw [if_pos hb]

/-- the element of twelve numbers -/
def ofNats (p : Nat) (n : Nat → Nat) : F12 p :=
  ⟨⟨⟨n 0, n 1⟩, ⟨n 2, n 3⟩⟩, ⟨⟨n 4, n 5⟩, ⟨n 6, n 7⟩⟩, ⟨⟨n 8, n 9⟩, ⟨n 10, n 11⟩⟩⟩

theorem coeffs_ofNats {n : Nat → Nat} (hn : ∀ i < 12, n i < K.rom.p) : coeffs (ofNats K.rom.p n) = (List.range 12).map n := by
  unfold coeffs ofNats
  simp only [ZMod.val_natCast]
  rw [Nat.mod_eq_of_lt (hn 0 (by norm_num)), Nat.mod_eq_of_lt (hn 1 (by norm_num)), Nat.mod_eq_of_lt (hn 2 (by norm_num)), Nat.mod_eq_of_lt (hn 3 (by norm_num)),
    Nat.mod_eq_of_lt (hn 4 (by norm_num)), Nat.mod_eq_of_lt (hn 5 (by norm_num)), Nat.mod_eq_of_lt (hn 6 (by norm_num)), Nat.mod_eq_of_lt (hn 7 (by norm_num)),
    Nat.mod_eq_of_lt (hn 8 (by norm_num)), Nat.mod_eq_of_lt (hn 9 (by norm_num)), Nat.mod_eq_of_lt (hn 10 (by norm_num)), Nat.mod_eq_of_lt (hn 11 (by norm_num))]
  rfl

theorem ofNats_coeffs (v : F12 K.rom.p) : ofNats K.rom.p (fun i => (coeffs v).getD i 0) = v := by
  unfold ofNats coeffs
  simp only [List.getD_cons_zero, List.getD_cons_succ, ZMod.natCast_val, ZMod.cast_id', id]

/-- `FP12::frombytes` of numbers below the modulus -/
theorem frombytes_ok (h : TowerOk K.rom.P K.rom.p) (hb : bytesB K = true) {w : List (BitVec 8)} (hw : 12 * K.rom.modbytes ≤ w.length)
    (hlt : ∀ i < 12, beNat ((w.drop (i * K.rom.modbytes)).take K.rom.modbytes) < K.rom.p) :
    ∃ x, frombytes K w = some x ∧ Std12 K.rom.P K.rom.p 2 x (ofNats K.rom.p fun i => beNat ((w.drop (i * K.rom.modbytes)).take K.rom.modbytes)) ∧ Tidy12 K x ∧ x.stype = 4 := by
  unfold bytesB at hb
  simp only [Bool.and_eq_true, decide_eq_true_eq] at hb
  obtain ⟨⟨b1, b2⟩, b3⟩ := hb
  have rd : ∀ i < 12, Rep K.rom.P.b K.rom.P.n (fromBytes (C := C) K.rom.P.b K.rom.P.n K.rom.modbytes ((w.drop (i * K.rom.modbytes)).take K.rom.modbytes))
      ((beNat ((w.drop (i * K.rom.modbytes)).take K.rom.modbytes) : Nat) : Int) := by
    intro i _
    have := fromBytes_rep (C := C) h.arith.ok h.arith.hn K.rom.modbytes b1 ((w.drop (i * K.rom.modbytes)).take K.rom.modbytes)
    rwa [List.take_take, Nat.min_self] at this
  have two : ∀ i, i + 1 < 12 → Std2 K.rom.P K.rom.p 2 (Fp2.newBigs K.rom.P (fromBytes (C := C) K.rom.P.b K.rom.P.n K.rom.modbytes ((w.drop (i * K.rom.modbytes)).take K.rom.modbytes))
      (fromBytes (C := C) K.rom.P.b K.rom.P.n K.rom.modbytes ((w.drop ((i + 1) * K.rom.modbytes)).take K.rom.modbytes))) ⟨(beNat ((w.drop (i * K.rom.modbytes)).take K.rom.modbytes) : Nat),
      (beNat ((w.drop ((i + 1) * K.rom.modbytes)).take K.rom.modbytes) : Nat)⟩ ∧
      Tidy2 K (Fp2.newBigs K.rom.P (fromBytes (C := C) K.rom.P.b K.rom.P.n K.rom.modbytes ((w.drop (i * K.rom.modbytes)).take K.rom.modbytes))
      (fromBytes (C := C) K.rom.P.b K.rom.P.n K.rom.modbytes ((w.drop ((i + 1) * K.rom.modbytes)).take K.rom.modbytes))) := by
    intro i hi
    exact ⟨std2_newBigs h (rd i (by omega)) (hlt i (by omega)) (rd (i + 1) hi) (hlt (i + 1) hi),
      clean_newBig h (rd i (by omega)) (hlt i (by omega)), clean_newBig h (rd (i + 1) hi) (hlt (i + 1) hi)⟩
  refine ⟨⟨⟨_, _⟩, ⟨_, _⟩, ⟨_, _⟩, 4⟩, ?_, ⟨⟨(two 0 (by norm_num)).1, (two 2 (by norm_num)).1⟩, ⟨(two 4 (by norm_num)).1, (two 6 (by norm_num)).1⟩,
    ⟨(two 8 (by norm_num)).1, (two 10 (by norm_num)).1⟩⟩, ⟨⟨(two 0 (by norm_num)).2, (two 2 (by norm_num)).2⟩, ⟨(two 4 (by norm_num)).2, (two 6 (by norm_num)).2⟩,
    ⟨(two 8 (by norm_num)).2, (two 10 (by norm_num)).2⟩⟩, rfl⟩
  unfold frombytes
  dsimp only
  rw [if_neg (by omega)]
  rfl

/-- the blocks of an encoding -/
theorem enc12_blocks (hb : bytesB K = true) (v : F12 K.rom.p) (rest : List (BitVec 8)) {i : Nat} (hi : i < 12) :
    beNat (((enc12 K.rom.modbytes v ++ rest).drop (i * K.rom.modbytes)).take K.rom.modbytes) = (coeffs v).getD i 0 ∧ (coeffs v).getD i 0 < K.rom.p := by
  unfold bytesB at hb
  simp only [Bool.and_eq_true, decide_eq_true_eq] at hb
  obtain ⟨⟨b1, b2⟩, b3⟩ := hb
  have hl : (coeffs v).length = 12 := rfl
  have hlt : ∀ c ∈ coeffs v, c < K.rom.p := by
    unfold coeffs
    simp only [List.mem_cons, List.not_mem_nil, or_false]
    rintro c (h | h | h | h | h | h | h | h | h | h | h | h) <;> rw [h] <;> exact ZMod.val_lt _
  have e : (coeffs v).getD i 0 = (coeffs v)[i]'(by omega) := by rw [List.getD_eq_getElem?_getD, List.getElem?_eq_getElem (by omega)]; rfl
  have h2 := hlt _ (List.getElem_mem (l := coeffs v) (n := i) (by omega))
  rw [e]
  refine ⟨?_, h2⟩
  unfold enc12
  rw [flat_block _ _ _ i (by omega), Spec.beNat_beBytes, Nat.mod_eq_of_lt (by omega)]

/-- decoding an encoding -/
theorem from_enc12 (h : TowerOk K.rom.P K.rom.p) (hb : bytesB K = true) (v : F12 K.rom.p) (rest : List (BitVec 8)) :
    ∃ x, frombytes K (enc12 K.rom.modbytes v ++ rest) = some x ∧ Std12 K.rom.P K.rom.p 2 x v ∧ Tidy12 K x ∧ x.stype = 4 := by
  obtain ⟨x, x1, x2, x3, x4⟩ := frombytes_ok h hb (w := enc12 K.rom.modbytes v ++ rest) (by rw [List.length_append, enc12_length]; omega) (fun i hi => by
    obtain ⟨e1, e2⟩ := enc12_blocks hb v rest hi
    rw [e1]; exact e2)
  refine ⟨x, x1, ?_, x3, x4⟩
  have e : (ofNats K.rom.p fun i => beNat (((enc12 K.rom.modbytes v ++ rest).drop (i * K.rom.modbytes)).take K.rom.modbytes)) = v := by
    have b := fun i hi => (enc12_blocks hb v rest (i := i) hi).1
    refine Eq.trans ?_ (ofNats_coeffs v)
    unfold ofNats
    simp only [b 0 (by norm_num), b 1 (by norm_num), b 2 (by norm_num), b 3 (by norm_num), b 4 (by norm_num), b 5 (by norm_num), b 6 (by norm_num), b 7 (by norm_num),
      b 8 (by norm_num), b 9 (by norm_num), b 10 (by norm_num), b 11 (by norm_num)]
  rwa [e] at x2

/-- encoding what was decoded -/
theorem enc_from (h : TowerOk K.rom.P K.rom.p) (hb : bytesB K = true) {w buf : List (BitVec 8)} (hw : 12 * K.rom.modbytes ≤ w.length) (hbuf : 12 * K.rom.modbytes ≤ buf.length)
    (hlt : ∀ i < 12, beNat ((w.drop (i * K.rom.modbytes)).take K.rom.modbytes) < K.rom.p) :
    ∃ x, frombytes K w = some x ∧ tobytes K x buf = some (w.take (12 * K.rom.modbytes) ++ buf.drop (12 * K.rom.modbytes)) := by
  obtain ⟨x, x1, x2, x3, _⟩ := frombytes_ok h hb hw hlt
  refine ⟨x, x1, ?_⟩
  rw [tobytes_ok h x2 x3 hbuf]
  unfold enc12
  rw [coeffs_ofNats hlt, flat_blocks _ _ _ hw]

end Verif.Gt
