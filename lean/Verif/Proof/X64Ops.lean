import Verif.Spec.X64Ops
import Verif.Proof.X64Alloc
import Verif.Proof.X64Run
/- Lemmas for C81. -/
namespace Mes.X64
open X86 (Byte8)
open Mes.Mescc

/-- Code without displacements and constants. -/
def decodeAll : Nat → List Byte8 → Option (List Instr)
  | _, [] => some []
  | 0, _ => none
  | n + 1, bs =>
    match decode bs with
    | some (i, [], [], rest) => (decodeAll n rest).map (i :: ·)
    | _ => none

def execAll : List Instr → Regs → Option Regs
  | [], s => some s
  | i :: is, s => (exec i [] s).bind (execAll is)

theorem execAll_append : ∀ {is js : List Instr} {s s1 s2 : Regs}, execAll is s = some s1 → execAll js s1 = some s2 → execAll (is ++ js) s = some s2
  | [], js, s, s1, s2, h, h2 => by
    cases h
    exact h2
  | i :: is, js, s, s1, s2, h, h2 => by
    obtain ⟨t, ht, hr⟩ := Option.bind_eq_some_iff.1 h
    exact Option.bind_eq_some_iff.2 ⟨t, ht, execAll_append hr h2⟩

theorem runs_of_decodeAll : ∀ (n : Nat) {bs : List Byte8} {is : List Instr} {s s' : Regs}, decodeAll n bs = some is → execAll is s = some s' → Runs bs s s'
  | n, [], is, s, s', h, he => by
    have : decodeAll n [] = some [] := by cases n <;> rfl
    rw [this] at h
    cases h
    cases he
    exact .done
  | 0, b :: bs, is, s, s', h, he => nomatch h
  | n + 1, b :: bs, is, s, s', h, he => by
    simp only [decodeAll] at h
    split at h
    · rename_i i rest hd
      obtain ⟨js, hj, rfl⟩ := Option.map_eq_some_iff.1 h
      obtain ⟨s1, h1, h2⟩ := Option.bind_eq_some_iff.1 he
      exact .step hd h1 (runs_of_decodeAll n hj h2)
    · exact nomatch h

def listing (names : List String) : Option (List Instr) := (assemble64 false (names.map (.ins · []))).bind fun bs => decodeAll bs.length bs

theorem assemble_plain (mesc : Bool) : ∀ names : List String, assemble64 mesc (names.map (.ins · [])) = assemble64 false (names.map (.ins · []))
  | [] => rfl
  | n :: ns => by
    simp only [List.map_cons, assemble64, Line64.bytes, assemble_plain mesc ns]
    rfl

theorem code_of {mesc : Bool} {i : Alloc} {f : Fn64} {is : List Instr} {s s' : Regs} (h : listing (f.lines i.allocated i.registers) = some is)
    (he : execAll is s = some s') : Code mesc i f s s' := by
  obtain ⟨bs, hb, hd⟩ := Option.bind_eq_some_iff.1 h
  exact ⟨bs, (assemble_plain mesc _).trans hb, runs_of_decodeAll _ hd he⟩

theorem put_reg (s : Regs) (n : Nat) (v : Quad) : (s.put n v).reg n = v := if_pos rfl
theorem put_other (s : Regs) {n k : Nat} (h : k ≠ n) (v : Quad) : (s.put n v).reg k = s.reg k := if_neg h

/-- Both registers are allocated. -/
theorem Reach.two {i : Alloc} (h : Reach i) (ha : i.allocated = ["rdi", "rax"]) : i.registers = registers64.drop 2 := by
  rcases h.three with ⟨h1, h2⟩ | ⟨h1, h2⟩ | ⟨h1, h2⟩
  · rw [ha] at h1
    exact absurd h1 (by decide)
  · rw [ha] at h1
    exact absurd h1 (by decide)
  · exact h2

/-- What `r` is. -/
theorem Reach.current {i : Alloc} (h : Reach i) {f : Fn64} {is0 is7 : List Instr} (h0 : listing (f.names "rax" "" "" "rax") = some is0)
    (h1 : listing (f.names "rax" "" "rax" "rdi") = some is0) (h2 : listing (f.names "rdi" "rax" "rdi" "rsi") = some is7) :
    (X64.current i = 0 ∧ listing (f.lines i.allocated i.registers) = some is0) ∨ (X64.current i = 7 ∧ listing (f.lines i.allocated i.registers) = some is7) := by
  rcases h.three with ⟨ha, hr⟩ | ⟨ha, hr⟩ | ⟨ha, hr⟩
  · exact .inl ⟨by rw [X64.current, ha]; rfl, by rw [ha, hr]; exact h0⟩
  · exact .inl ⟨by rw [X64.current, ha]; rfl, by rw [ha, hr]; exact h1⟩
  · exact .inr ⟨by rw [X64.current, ha]; rfl, by rw [ha, hr]; exact h2⟩

theorem mod_cl (n : Nat) : n % 256 % 64 = n % 64 := by omega

theorem ofNat_mul (x y : Quad) : BitVec.ofNat 64 (x.toNat * y.toNat) = x * y := by
  apply BitVec.eq_of_toNat_eq
  rw [BitVec.toNat_ofNat, BitVec.toNat_mul]

theorem zero_extend (x : Quad) {w : Nat} (h : w ≤ 64) : (x.setWidth w).setWidth 64 = BitVec.ofNat 64 (x.toNat % 2 ^ w) := by
  apply BitVec.eq_of_toNat_eq
  rw [BitVec.toNat_setWidth, BitVec.toNat_setWidth, BitVec.toNat_ofNat]

theorem sign_extend (x : Quad) {w : Nat} (h : w ≤ 64) : (x.setWidth w).signExtend 64 = BitVec.ofInt 64 (x.toInt.bmod (2 ^ w)) := by
  unfold BitVec.signExtend
  congr 1
  rw [BitVec.toInt_setWidth, BitVec.toInt_eq_toNat_bmod, Int.bmod_bmod_of_dvd]
  exact Nat.pow_dvd_pow 2 h

theorem double (x : Quad) : 2 * x = x + x := by
  apply BitVec.eq_of_toNat_eq
  rw [BitVec.toNat_mul, BitVec.toNat_add]
  show 2 * x.toNat % 2 ^ 64 = _
  rw [Nat.two_mul]

theorem low_byte (x : BitVec 56) (b : BitVec 8) : (x ++ b).setWidth 8 = b := by
  apply BitVec.eq_of_toNat_eq
  rw [BitVec.toNat_setWidth, BitVec.toNat_append, ← Nat.shiftLeft_add_eq_or_of_lt (BitVec.isLt _), Nat.shiftLeft_eq]
  have := b.isLt
  omega

theorem divide_zero {s : Regs} {d : Quad} (h2 : s.reg 2 = 0) (hd : d ≠ 0) :
    divide s d = some { (s.put 0 (s.reg 0 / d)).put 2 (s.reg 0 % d) with compared := none } := by
  have h0 : d.toNat ≠ 0 := fun h => hd (BitVec.eq_of_toNat_eq h)
  have hx : (s.reg 2).toNat * 2 ^ 64 + (s.reg 0).toNat = (s.reg 0).toNat := by rw [h2]; simp
  have hq : (s.reg 0).toNat / d.toNat < 2 ^ 64 := Nat.lt_of_le_of_lt (Nat.div_le_self _ _) (s.reg 0).isLt
  have hm : (s.reg 0).toNat % d.toNat < 2 ^ 64 := Nat.lt_of_le_of_lt (Nat.mod_le _ _) (s.reg 0).isLt
  have e1 : BitVec.ofNat 64 ((s.reg 0).toNat / d.toNat) = s.reg 0 / d := by
    apply BitVec.eq_of_toNat_eq
    rw [BitVec.toNat_ofNat, Nat.mod_eq_of_lt hq, BitVec.toNat_udiv]
  have e2 : BitVec.ofNat 64 ((s.reg 0).toNat % d.toNat) = s.reg 0 % d := by
    apply BitVec.eq_of_toNat_eq
    rw [BitVec.toNat_ofNat, Nat.mod_eq_of_lt hm, BitVec.toNat_umod]
  simp only [divide, hx, e1, e2]
  rw [if_neg (by omega)]

theorem toInt_bounds (x : Quad) : -9223372036854775808 ≤ x.toInt ∧ x.toInt < 9223372036854775808 := by
  have h1 := x.isLt
  rw [BitVec.toInt_eq_toNat_cond]
  split <;> omega

theorem sign_high (x : Quad) : (if x.msb then BitVec.allOnes 64 else (0 : Quad)).toInt * 2 ^ 64 + x.toNat = x.toInt := by
  rw [BitVec.toInt_eq_msb_cond x]
  cases x.msb with
  | false => simp
  | true =>
    have : (BitVec.allOnes 64).toInt = -1 := by decide
    simp only [if_true, this]
    omega

theorem quotient_bounds {x d : Int} (hx1 : -9223372036854775808 ≤ x) (hx2 : x < 9223372036854775808) (hd : d ≠ 0) (hn : ¬ (x = -9223372036854775808 ∧ d = -1)) :
    -9223372036854775808 ≤ x.tdiv d ∧ x.tdiv d < 9223372036854775808 := by
  by_cases h1 : d = 1
  · subst h1
    rw [Int.tdiv_one]
    exact ⟨hx1, hx2⟩
  by_cases h2 : d = -1
  · subst h2
    rw [Int.tdiv_neg, Int.tdiv_one]
    have : x ≠ -9223372036854775808 := fun h => hn ⟨h, rfl⟩
    omega
  · have h3 : (x.tdiv d).natAbs = x.natAbs / d.natAbs := Int.natAbs_tdiv x d
    have h4 : x.natAbs / d.natAbs ≤ x.natAbs / 2 := Nat.div_le_div_left (by omega) (by decide)
    omega

theorem remainder_bounds {x d : Int} (hd1 : -9223372036854775808 ≤ d) (hd2 : d < 9223372036854775808) (hd : d ≠ 0) :
    -9223372036854775808 ≤ x.tmod d ∧ x.tmod d < 9223372036854775808 := by
  have h3 : (x.tmod d).natAbs = x.natAbs % d.natAbs := Int.natAbs_tmod x d
  have h4 : x.natAbs % d.natAbs < d.natAbs := Nat.mod_lt _ (by omega)
  omega

theorem divideSigned_sign {s : Regs} {x d : Quad} (h0 : s.reg 0 = x) (h2 : s.reg 2 = (if x.msb then BitVec.allOnes 64 else 0)) (hd : d ≠ 0)
    (hn : ¬ (x.toInt = -9223372036854775808 ∧ d.toInt = -1)) :
    divideSigned s d = some { (s.put 0 (BitVec.ofInt 64 (x.toInt.tdiv d.toInt))).put 2 (BitVec.ofInt 64 (x.toInt.tmod d.toInt)) with compared := none } := by
  have hd0 : d.toInt ≠ 0 := fun h => hd (BitVec.eq_of_toInt_eq (by rw [h]; rfl))
  have hx : (s.reg 2).toInt * 2 ^ 64 + (s.reg 0).toNat = x.toInt := by rw [h2, h0]; exact sign_high x
  have hb := quotient_bounds (toInt_bounds x).1 (toInt_bounds x).2 hd0 hn
  simp only [divideSigned, hx]
  rw [if_neg (by omega)]

theorem toInt_ofInt64 {v : Int} (h : -9223372036854775808 ≤ v ∧ v < 9223372036854775808) : (BitVec.ofInt 64 v).toInt = v :=
  BitVec.toInt_ofInt_eq_self (by decide) (by simpa using h.1) (by simpa using h.2)

end Mes.X64
