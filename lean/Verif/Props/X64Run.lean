import Verif.Proof.X64Run
/- C79: the constants in the code that MesCC writes for x86_64, /repo/module/mescc/x86_64/as.scm. -/
namespace Mes.X64
open Mescc

/-- The text can be assembled, and its code does what `post` says. -/
def Does (mesc : Bool) (text : List Line64) (post : Regs → Regs → Prop) : Prop :=
  ∃ bs, assemble64 mesc text = some bs ∧ ∀ s, ∃ s', Runs bs s s' ∧ post s s'

/-- A constant of C: it fits into 64 bits, with or without sign. -/
def Constant (v : Int) : Prop := -9223372036854775808 ≤ v ∧ v < 18446744073709551616

/-- `value->r`: the register becomes the constant. -/
def ValueCorrect (allowed : Bool → Int → Prop) : Prop :=
  ∀ (mesc : Bool) (i : Info) (n : Nat) (v : Int), Used (getR i) n → Constant v → allowed mesc v →
    Does mesc (valueToR64 i v) fun s s' => s'.reg n = BitVec.ofInt 64 v ∧ s.Kept n s'

/-- `value->r0`. -/
def ValueR0Correct (allowed : Bool → Int → Prop) : Prop :=
  ∀ (mesc : Bool) (i : Info) (n : Nat) (v : Int), Used (getR0 i) n → Constant v → allowed mesc v →
    Does mesc (valueToR064 i v) fun s s' => s'.reg n = BitVec.ofInt 64 v ∧ s.Kept n s'

/-- `r+value`: the constant is added to the register. -/
def AddCorrect (allowed : Bool → Int → Prop) : Prop :=
  ∀ (mesc : Bool) (i : Info) (n : Nat) (v : Int), Used (getR i) n → Constant v → allowed mesc v →
    Does mesc (rAddValue64 i v) fun s s' => s'.reg n = s.reg n + BitVec.ofInt 64 v ∧ s.Kept n s'

/-- `r0+value`. -/
def AddR0Correct (allowed : Bool → Int → Prop) : Prop :=
  ∀ (mesc : Bool) (i : Info) (n : Nat) (v : Int), Used (getR0 i) n → Constant v → allowed mesc v →
    Does mesc (r0AddValue64 i v) fun s s' => s'.reg n = s.reg n + BitVec.ofInt 64 v ∧ s.Kept n s'

/-- `r-and`: the conjunction with the constant. -/
def AndCorrect (allowed : Bool → Nat → Int → Prop) : Prop :=
  ∀ (mesc : Bool) (i : Info) (n : Nat) (v : Int), Used (getR i) n → Constant v → allowed mesc n v →
    Does mesc (rAnd64 i v) fun s s' => s'.reg n = s.reg n &&& BitVec.ofInt 64 v ∧ s.Kept n s'

/-- `r-cmp-value`: the register is compared with the constant, and no register changes. -/
def CmpCorrect (allowed : Nat → Int → Prop) : Prop :=
  ∀ (mesc : Bool) (i : Info) (n : Nat) (v : Int), Used (getR i) n → Constant v → allowed n v →
    Does mesc (rCmpValue64 i v) fun s s' => s'.compared = some (s.reg n, BitVec.ofInt 64 v) ∧ s'.reg = s.reg

/-- `local-ptr->r`: the address of a local variable. -/
def LocalCorrect (allowed : Int → Prop) : Prop :=
  ∀ (mesc : Bool) (i : Info) (n : Nat) (id : Int), Used (getR i) n → allowed id →
    Does mesc (localPtrToR64 i id) fun s s' => s'.reg n = s.reg 5 - BitVec.ofInt 64 (8 * id) ∧ s.Kept n s'

/-- C79 in full. -/
def C79_full : Prop :=
  ValueCorrect (fun _ _ => True) ∧ ValueR0Correct (fun _ _ => True) ∧ AddCorrect (fun _ _ => True) ∧ AddR0Correct (fun _ _ => True) ∧
    AndCorrect (fun _ _ _ => True) ∧ CmpCorrect (fun _ _ => True) ∧ LocalCorrect fun id => (8 * id).natAbs < 2147483648

end Mes.X64

namespace Mes.Props
open Mes.X64 Mes.Mescc

theorem kept_put (s : Regs) (n : Nat) (v : Quad) : s.Kept n (s.put n v) := fun _ h _ => if_neg h

theorem _root_.Mes.X64.Gives.does {mesc : Bool} {text : List Line64} {f : Regs → Regs} {post : Regs → Regs → Prop} (h : Gives mesc text f) (hp : ∀ s, post s (f s)) :
    Does mesc text post := by
  obtain ⟨bs, h1, h2⟩ := h
  exact ⟨bs, h1, fun s => ⟨_, h2 s, hp s⟩⟩

/-- What a text gives is all that it can do. -/
theorem _root_.Mes.X64.Does.gives {mesc : Bool} {text : List Line64} {f : Regs → Regs} {post : Regs → Regs → Prop} (h : Does mesc text post) (g : Gives mesc text f) (s : Regs) :
    post s (f s) := by
  obtain ⟨bs, h1, h2⟩ := h
  obtain ⟨cs, g1, g2⟩ := g
  rw [g1] at h1
  cases h1
  obtain ⟨s', r, hp⟩ := h2 s
  rwa [(g2 s).det r]

theorem put_self (s : Regs) (n : Nat) (v : Quad) : (s.put n v).reg n = v := if_pos rfl

/-- Missing for the full property: constants from 0x80000000 to 0xfffffffe and below -0x100000000, and MesCC compiled with "mesc". -/
theorem C79_value_partial : ValueCorrect fun mesc v => 0 ≤ v ∧ v < 2147483648 ∨ mesc = false ∧ -4294967296 ≤ v ∧ (v < 0 ∨ 4294967295 ≤ v) := by
  intro mesc i n v hu hc ha
  unfold valueToR64
  by_cases h : 0 ≤ v ∧ v < 0xffffffff
  · rw [if_pos h]
    refine (gives_mov4 mesc hu v).does fun s => ⟨?_, kept_put _ _ _⟩
    rw [put_self, signExtend_ofInt4 (by omega) (by omega)]
  · rw [if_neg h]
    obtain ⟨hm, hv, -⟩ : mesc = false ∧ -4294967296 ≤ v ∧ (v < 0 ∨ 4294967295 ≤ v) := by
      rcases ha with ha | ha
      · omega
      · exact ha
    refine (gives_mov8 mesc (.inl hu) v (gives_nil mesc)).does fun s => ⟨?_, kept_put _ _ _⟩
    show (s.put n _).reg n = _
    rw [put_self, hm, quadOf_eq hv]

/-- Constants from 0x80000000 to 0xfffffffe are extended with a sign that they do not have. -/
theorem C79_value_sign (mesc : Bool) (i : Info) (n : Nat) (v : Int) (hu : Used (getR i) n) (h1 : 2147483648 ≤ v) (h2 : v < 4294967295) :
    Does mesc (valueToR64 i v) fun s s' => s'.reg n = BitVec.ofInt 64 (v - 4294967296) := by
  unfold valueToR64
  rw [if_pos (by omega)]
  refine (gives_mov4 mesc hu v).does fun s => ?_
  rw [put_self, ← signExtend_ofInt4 (v := v - 4294967296) (by omega) (by omega)]
  congr 1
  apply BitVec.eq_of_toNat_eq
  rw [BitVec.toNat_ofInt, BitVec.toNat_ofInt]
  omega

/-- `info` of a function that has allocated one register. -/
def oneRegister (r : String) : Info := ⟨[], "", [], [], [], [], [r], 0⟩

theorem C79_value_false : ¬ ValueCorrect fun mesc _ => mesc = false := by
  intro h
  have h1 := h false (oneRegister "rax") 0 2147483648 (.inl ⟨rfl, rfl⟩) (by unfold Constant; omega) rfl
  have h2 := h1.gives (gives_mov4 false (.inl ⟨rfl, rfl⟩) 2147483648) ⟨fun _ => 0, none⟩
  revert h2
  rw [put_self]
  intro h2
  exact absurd h2.1 (by decide)

/-- Below -0x100000000 the upper four bytes are wrong. -/
theorem C79_negative_false : ¬ ValueCorrect fun mesc v => mesc = false ∧ v < 0 := by
  intro h
  have h1 := h false (oneRegister "rax") 0 (-4294967297) (.inl ⟨rfl, rfl⟩) (by unfold Constant; omega) ⟨rfl, by omega⟩
  have h2 := h1.gives (gives_mov8 false (.inl (.inl ⟨rfl, rfl⟩)) (-4294967297) (gives_nil false)) ⟨fun _ => 0, none⟩
  exact absurd h2.1 (by decide)

/-- MesCC compiled with "mesc" writes the lower four bytes as 0 and the constant into the upper four. -/
theorem C79_mesc_false : ¬ ValueCorrect fun mesc v => mesc = true ∧ 4294967295 ≤ v := by
  intro h
  have h1 := h true (oneRegister "rax") 0 4294967295 (.inl ⟨rfl, rfl⟩) (by unfold Constant; omega) ⟨rfl, by omega⟩
  have h2 := h1.gives (gives_mov8 true (.inl (.inl ⟨rfl, rfl⟩)) 4294967295 (gives_nil true)) ⟨fun _ => 0, none⟩
  exact absurd h2.1 (by decide)

/-- Missing for the full property: constants of more than 32 bits. -/
theorem C79_value_r0_partial : ValueR0Correct fun _ v => -2147483648 ≤ v ∧ v < 2147483648 := by
  intro mesc i n v hu _ ha
  refine (gives_mov4 mesc hu v).does fun s => ⟨?_, kept_put _ _ _⟩
  rw [put_self, signExtend_ofInt4 ha.1 ha.2]

theorem C79_value_r0_false : ¬ ValueR0Correct fun _ _ => True := by
  intro h
  have h1 := h false ⟨[], "", [], [], [], [], ["rdi", "rax"], 0⟩ 0 4294967296 (.inl ⟨rfl, rfl⟩) (by unfold Constant; omega) trivial
  have h2 := h1.gives (gives_mov4 false (.inl ⟨rfl, rfl⟩) 4294967296) ⟨fun _ => 0, none⟩
  exact absurd h2.1 (by decide)

theorem kept_add (s : Regs) (n : Nat) (v : Quad) : s.Kept n (s.add n v) := kept_put s n _

theorem add_self (s : Regs) (n : Nat) (v : Quad) : (s.add n v).reg n = s.reg n + v := put_self _ _ _

/-- Missing for the full property: constants of more than 32 bits. -/
theorem C79_add_partial : AddCorrect fun _ v => v.natAbs < 2147483648 := by
  intro mesc i n v hu _ ha
  unfold rAddValue64
  by_cases h : v.natAbs < 0x80
  · rw [if_pos h]
    refine (gives_add1 mesc hu v).does fun s => ⟨?_, kept_add _ _ _⟩
    rw [add_self, signExtend_ofInt1 (by omega) (by omega)]
  · rw [if_neg h, if_pos ha]
    refine (gives_add4 mesc hu v).does fun s => ⟨?_, kept_add _ _ _⟩
    rw [add_self, signExtend_ofInt4 (by omega) (by omega)]

/-- For a larger constant there is no code: `add____%r15,%rax` and `add____%r15,%rdi` are not defined. -/
theorem C79_add_unknown (mesc : Bool) (i : Info) (n : Nat) (v : Int) (hu : Used (getR i) n) (h : 2147483648 ≤ v.natAbs) : assemble64 mesc (rAddValue64 i v) = none := by
  unfold rAddValue64
  rw [if_neg (by omega), if_neg (by omega)]
  have : assemble64 mesc [.ins ("add____%r15,%" ++ getR i) []] = none := by
    rcases hu with ⟨e, -⟩ | ⟨e, -⟩ <;> rw [e] <;> exact bytes_unknown (by decide +kernel) _ _
  rw [assemble64, this]
  cases Line64.bytes mesc (.ins "mov____$i64,%r15" [.imm8 v]) <;> rfl

theorem C79_add_false : ¬ AddCorrect fun _ _ => True := by
  intro h
  obtain ⟨bs, h1, -⟩ := h false (oneRegister "rax") 0 2147483648 (.inl ⟨rfl, rfl⟩) (by unfold Constant; omega) trivial
  rw [C79_add_unknown false (oneRegister "rax") 0 2147483648 (.inl ⟨rfl, rfl⟩) (by decide)] at h1
  cases h1

theorem C79_add_r0_partial : AddR0Correct fun _ v => v.natAbs < 2147483648 := by
  intro mesc i n v hu _ ha
  unfold r0AddValue64
  by_cases h : v.natAbs < 0x80
  · rw [if_pos h]
    refine (gives_add1 mesc hu v).does fun s => ⟨?_, kept_add _ _ _⟩
    rw [add_self, signExtend_ofInt1 (by omega) (by omega)]
  · rw [if_neg h]
    refine (gives_add4 mesc hu v).does fun s => ⟨?_, kept_add _ _ _⟩
    rw [add_self, signExtend_ofInt4 (by omega) (by omega)]

theorem kept_and (s : Regs) (n : Nat) (v : Quad) : s.Kept n (s.and n v) := kept_put s n _

theorem and_self' (s : Regs) (n : Nat) (v : Quad) : (s.and n v).reg n = s.reg n &&& v := put_self _ _ _

/-- Missing for the full property: as for `value->r`, and constants from 0 to 0x7fffffff with `%rax`. -/
theorem C79_and_partial : AndCorrect fun mesc n v => n = 7 ∧ 0 ≤ v ∧ v < 2147483648 ∨ mesc = false ∧ -4294967296 ≤ v ∧ (v < 0 ∨ 4294967295 ≤ v) := by
  intro mesc i n v hu hc ha
  unfold rAnd64
  by_cases h : 0 ≤ v ∧ v < 0xffffffff
  · rw [if_pos h]
    have hn : n = 7 := by omega
    have e : getR i = "rdi" := by
      rcases hu with ⟨_, h⟩ | ⟨e, _⟩
      · omega
      · exact e
    subst hn
    rw [e]
    refine (gives_and4 mesc v).does fun s => ⟨?_, kept_and _ _ _⟩
    rw [and_self', signExtend_ofInt4 (by omega) (by omega)]
  · rw [if_neg h]
    obtain ⟨hm, hv, -⟩ : mesc = false ∧ -4294967296 ≤ v ∧ (v < 0 ∨ 4294967295 ≤ v) := by
      rcases ha with ha | ha
      · omega
      · exact ha
    have hn : n ≠ 15 := by
      rcases hu with ⟨_, h⟩ | ⟨_, h⟩ <;> omega
    refine (gives_mov8 mesc (.inr ⟨rfl, rfl⟩) v (gives_and15 mesc hu)).does fun s => ⟨?_, fun k h1 h2 => ?_⟩
    · rw [and_self', put_self, hm, quadOf_eq hv]
      congr 1
      exact if_neg hn
    · rw [kept_and _ _ _ k h1 h2]
      exact if_neg h2

/-- With `%rax` there is no code for a small constant. -/
theorem C79_and_unknown (mesc : Bool) (i : Info) (v : Int) (hu : getR i = "rax") (h1 : 0 ≤ v) (h2 : v < 4294967295) : assemble64 mesc (rAnd64 i v) = none := by
  unfold rAnd64
  rw [if_pos ⟨h1, h2⟩, hu]
  exact bytes_unknown (by decide +kernel) _ _

/-- With `%rdi`, the upper half of the register is kept if the constant has 32 bits. -/
theorem C79_and_false : ¬ AndCorrect fun mesc n _ => mesc = false ∧ n = 7 := by
  intro h
  have h1 := h false (oneRegister "rdi") 7 2147483648 (.inr ⟨rfl, rfl⟩) (by unfold Constant; omega) ⟨rfl, rfl⟩
  have h2 := h1.gives (gives_and4 false 2147483648) ⟨fun _ => -1, none⟩
  exact absurd h2.1 (by decide)

/-- Missing for the full property: other constants. -/
theorem C79_cmp_partial : CmpCorrect fun n v => v.natAbs < 128 ∨ n = 0 ∧ 0 ≤ v ∧ v < 2147483648 := by
  intro mesc i n v hu hc ha
  unfold rCmpValue64
  by_cases h : v.natAbs < 0x80
  · rw [if_pos h]
    refine (gives_cmp1 mesc hu v).does fun s => ⟨?_, rfl⟩
    rw [signExtend_ofInt1 (by omega) (by omega)]
    rfl
  · rw [if_neg h, if_pos (by omega)]
    have hn : n = 0 := by omega
    have e : getR i = "rax" := by
      rcases hu with ⟨e, _⟩ | ⟨_, h⟩
      · exact e
      · omega
    subst hn
    rw [e]
    refine (gives_cmp4 mesc v).does fun s => ⟨?_, rfl⟩
    rw [signExtend_ofInt4 (by omega) (by omega)]
    rfl

/-- There is no code for a comparison of `%rdi` with a constant of more than one byte, or of either with a negative one or one of more than 32 bits. -/
theorem C79_cmp_unknown (mesc : Bool) (i : Info) (n : Nat) (v : Int) (hu : Used (getR i) n) (h : 128 ≤ v.natAbs) (hv : n = 7 ∨ v < 0 ∨ 4294967295 ≤ v) :
    assemble64 mesc (rCmpValue64 i v) = none := by
  unfold rCmpValue64
  rw [if_neg (by omega)]
  by_cases g : 0 ≤ v ∧ v < 0xffffffff
  · rw [if_pos g]
    have e : getR i = "rdi" := by
      rcases hu with ⟨_, h⟩ | ⟨e, _⟩
      · omega
      · exact e
    rw [e]
    exact bytes_unknown (by decide +kernel) _ _
  · rw [if_neg g]
    rfl

theorem C79_cmp_false : ¬ CmpCorrect fun _ _ => True := by
  intro h
  obtain ⟨bs, h1, -⟩ := h false (oneRegister "rdi") 7 128 (.inr ⟨rfl, rfl⟩) (by unfold Constant; omega) trivial
  rw [C79_cmp_unknown false (oneRegister "rdi") 7 128 (.inr ⟨rfl, rfl⟩) (by decide) (by omega)] at h1
  cases h1

theorem C79_local : LocalCorrect fun id => (8 * id).natAbs < 2147483648 := by
  intro mesc i n id hu ha
  have hn : (BitVec.ofInt 64 (0 - 8 * id)) = - BitVec.ofInt 64 (8 * id) := by rw [Int.zero_sub, BitVec.ofInt_neg]
  have key : ∀ s : Regs, ((s.put n (s.reg 5)).add n (BitVec.ofInt 64 (0 - 8 * id))).reg n = s.reg 5 - BitVec.ofInt 64 (8 * id) ∧
      s.Kept n ((s.put n (s.reg 5)).add n (BitVec.ofInt 64 (0 - 8 * id))) := fun s => by
    refine ⟨?_, fun k h1 h2 => ?_⟩
    · rw [add_self, put_self, hn, BitVec.sub_eq_add_neg]
    · rw [kept_add _ _ _ k h1 h2]
      exact if_neg h1
  unfold localPtrToR64
  by_cases h : (0 - 8 * id).natAbs < 0x80
  · rw [if_pos h]
    refine (gives_frame mesc hu (gives_add1 mesc hu _)).does fun s => ?_
    rw [signExtend_ofInt1 (by omega) (by omega)]
    exact key s
  · rw [if_neg h]
    refine (gives_frame mesc hu (gives_add4 mesc hu _)).does fun s => ?_
    rw [signExtend_ofInt4 (by omega) (by omega)]
    exact key s

theorem C79_false : ¬ C79_full := fun h => C79_add_false h.2.2.1

/-- `%rax` becomes -5; `%rdi` becomes 0x123456789. -/
example : Does false (valueToR64 (oneRegister "rax") (-5)) (fun s s' => s'.reg 0 = BitVec.ofInt 64 (-5) ∧ s.Kept 0 s') ∧
    Does false (valueToR64 (oneRegister "rdi") 0x123456789) (fun s s' => s'.reg 7 = BitVec.ofInt 64 0x123456789 ∧ s.Kept 7 s') :=
  ⟨C79_value_partial false _ 0 _ (.inl ⟨rfl, rfl⟩) (by unfold Constant; omega) (.inr ⟨rfl, by omega, by omega⟩), C79_value_partial false _ 7 _ (.inr ⟨rfl, rfl⟩) (by unfold Constant; omega) (.inr ⟨rfl, by omega, by omega⟩)⟩

end Mes.Props
