import Verif.Proof.CLangWords

/-
The state between the parts of an expression: the values that are alive, in `%ebx`, `%eax` and on the stack.
-/
namespace Mes.X86
open Mes.Mescc Mes.CLang

/-- `n` values are alive. -/
structure Regs (i : Info) (n : Nat) : Prop where
  allocated : i.allocated = (registers.take (min n 2)).reverse
  free : i.registers = registers.drop (min n 2)
  pushed : i.pushed = n - 2

theorem Regs.allocated2 {i : Info} {n : Nat} (h : Regs i (n + 2)) : i.allocated = ["ebx", "eax"] := by
  rw [h.allocated, show min (n + 2) 2 = 2 by omega]; rfl

theorem getR_zero {i : Info} (h : Regs i 0) : getR i = "eax" := by
  unfold getR; rw [h.allocated, h.free]; rfl

theorem getR_one {i : Info} (h : Regs i 1) : getR i = "eax" := by
  unfold getR; rw [h.allocated]; rfl

theorem getR_two {i : Info} {n : Nat} (h : Regs i (n + 2)) : getR i = "ebx" := by
  unfold getR; rw [h.allocated2]; rfl

theorem getR0_two {i : Info} {n : Nat} (h : Regs i (n + 2)) : getR0 i = "eax" := by
  unfold getR0; rw [h.allocated2]; rfl

theorem getR1_two {i : Info} {n : Nat} (h : Regs i (n + 2)) : getR1 i = "ebx" := by
  unfold getR1; rw [h.allocated2]; rfl

theorem Regs.append {i : Info} {n : Nat} (h : Regs i n) (t : List (List Line)) : Regs (appendText i t) n := ⟨h.allocated, h.free, h.pushed⟩

theorem Regs.alloc {i : Info} {n : Nat} (h : Regs i n) : Regs (allocateRegister i) (n + 1) := by
  unfold allocateRegister
  have ha := h.allocated
  have hf := h.free
  have hp := h.pushed
  match n, ha, hf, hp with
  | 0, ha, hf, hp =>
    rw [if_pos (by rw [ha]; decide)]
    exact ⟨by rw [ha, hf]; rfl, by rw [hf]; rfl, by rw [hp]⟩
  | 1, ha, hf, hp =>
    rw [if_pos (by rw [ha]; decide)]
    exact ⟨by rw [ha, hf]; rfl, by rw [hf]; rfl, by rw [hp]⟩
  | n + 2, ha, hf, hp =>
    rw [show min (n + 2) 2 = 2 by omega] at ha hf
    rw [if_neg (by rw [ha]; decide)]
    refine ⟨?_, ?_, ?_⟩
    · show i.allocated = _; rw [ha, show min (n + 2 + 1) 2 = 2 by omega]
    · show i.registers = _; rw [hf, show min (n + 2 + 1) 2 = 2 by omega]
    · show i.pushed + 1 = _; omega

theorem Regs.release {i : Info} {n : Nat} (h : Regs i (n + 1)) : Regs (freeRegister i) n := by
  unfold freeRegister
  have ha := h.allocated
  have hf := h.free
  have hp := h.pushed
  match n, ha, hf, hp with
  | 0, ha, hf, hp =>
    rw [if_pos hp]
    exact ⟨by rw [ha]; rfl, by rw [ha, hf]; rfl, by rw [hp]⟩
  | 1, ha, hf, hp =>
    rw [if_pos hp]
    exact ⟨by rw [ha]; rfl, by rw [ha, hf]; rfl, by rw [hp]⟩
  | n + 2, ha, hf, hp =>
    rw [show min (n + 2 + 1) 2 = 2 by omega] at ha hf
    rw [if_neg (by rw [hp]; omega)]
    refine ⟨?_, ?_, ?_⟩
    · show i.allocated = _; rw [ha, show min (n + 2) 2 = 2 by omega]
    · show i.registers = _; rw [hf, show min (n + 2) 2 = 2 by omega]
    · show i.pushed - 1 = _; omega

/-! ## The state -/

/-- The values in the registers. -/
def Top : List Word → (Reg → Word) → Prop
  | [], _ => True
  | [v], r => r .eax = v
  | v :: w :: _, r => r .ebx = v ∧ r .eax = w

/-- The values on the stack. -/
def Stk (X : Frame) (mem : Word → Byte8) : Nat → List Word → Prop
  | _, [] => True
  | k, w :: ds => word mem (X.at k) = w ∧ Stk X mem (k + 1) ds

/-- The state: the values `d` are alive, the words of the frame are `V`. -/
structure St (X : Frame) (V : Nat → Word) (d : List Word) (m : Mach) : Prop where
  bp : m.reg .ebp = X.bp
  len : d.length ≤ X.room + 2
  sp : m.reg .esp = X.at (X.room - (d.length - 2))
  top : Top d m.reg
  stk : Stk X m.mem (X.room - (d.length - 2)) (d.drop 2)
  vars : ∀ k, X.room ≤ k → k < X.words → word m.mem (X.at k) = V k
  prot : ∀ x, ¬ X.Inside x → m.mem x = X.M x

/-- Only registers change. -/
theorem St.regs {X : Frame} {V : Nat → Word} {d d' : List Word} {m m' : Mach} (h : St X V d m) (hm : m'.mem = m.mem)
    (hb : m'.reg .ebp = m.reg .ebp) (hs : m'.reg .esp = m.reg .esp) (hd : d'.drop 2 = d.drop 2) (hl : d'.length ≤ X.room + 2)
    (ht : Top d' m'.reg) : St X V d' m' := by
  have hk : d'.length - 2 = d.length - 2 := by
    have := congrArg List.length hd
    simpa using this
  exact ⟨by rw [hb, h.bp], hl, by rw [hs, h.sp, hk], ht, by rw [hm, hk, hd]; exact h.stk, fun k h1 h2 => by rw [hm]; exact h.vars k h1 h2,
    fun x hx => by rw [hm]; exact h.prot x hx⟩

/-- Nothing changes but flags. -/
theorem St.same {X : Frame} {V : Nat → Word} {d : List Word} {m m' : Mach} (h : St X V d m) (hm : m'.mem = m.mem) (hr : m'.reg = m.reg) :
    St X V d m' :=
  h.regs hm (by rw [hr]) (by rw [hr]) rfl h.len (by rw [hr]; exact h.top)

/-- A piece of text that takes the values `d` to the values `d'`. -/
def RunL (X : Frame) (V : Nat → Word) (ls : List Line) (d d' : List Word) (Q : Flags → Flags → Prop) : Prop :=
  ∀ m, St X V d m → Here X m ls → ∃ m', Steps m m' ∧ m'.eip = m.eip + BitVec.ofNat 32 (textSize ls) ∧ St X V d' m' ∧ Q m.flags m'.flags

theorem Next.eip1 {X : Frame} {m m' : Mach} {l : Line} {ls : List Line} (h : Next X m m' l ls) (hl : ls = []) :
    m'.eip = m.eip + BitVec.ofNat 32 (textSize [l]) := by
  rw [h.eip]; rfl

theorem RunL.nil {X : Frame} {V : Nat → Word} {d : List Word} : RunL X V [] d d (fun f f' => f' = f) := fun m h _ =>
  ⟨m, .refl _, by show m.eip = m.eip + 0; simp, h, rfl⟩

/-- One instruction on the registers. -/
theorem RunL.one {X : Frame} {V : Nat → Word} {d d' : List Word} {l : Line} {Q : Flags → Flags → Prop}
    (h : ∀ m, St X V d m → Here X m [l] → ∃ m', Next X m m' l [] ∧ St X V d' m' ∧ Q m.flags m'.flags) : RunL X V [l] d d' Q := fun m hs hh => by
  obtain ⟨m', h1, h2, h3⟩ := h m hs hh
  exact ⟨m', h1.steps, by rw [h1.eip]; rfl, h2, h3⟩

theorem RunL.cons {X : Frame} {V : Nat → Word} {d d' d'' : List Word} {l : Line} {ls : List Line} {P Q R : Flags → Flags → Prop}
    (h : RunL X V [l] d d' P) (h' : RunL X V ls d' d'' Q) (hr : ∀ f f' f'', P f f' → Q f' f'' → R f f'') :
    RunL X V (l :: ls) d d'' R := fun m hs hh => by
  obtain ⟨m', h1, h2, h3, h4⟩ := h m hs ⟨⟨hh.code.1, hh.code.2.1, trivial⟩, hh.prot⟩
  have he : m'.eip = m.eip + BitVec.ofNat 32 l.size := by rw [h2]; rfl
  obtain ⟨m'', g1, g2, g3, g4⟩ := h' m' h3 ⟨by rw [he]; exact hh.code.2.2, h3.prot⟩
  exact ⟨m'', h1.trans g1, by rw [g2, he, textSize_cons, BitVec.ofNat_add, BitVec.add_assoc], g3, hr _ _ _ h4 g4⟩

theorem RunL.weak {X : Frame} {V : Nat → Word} {d d' : List Word} {ls : List Line} {P Q : Flags → Flags → Prop} (h : RunL X V ls d d' P)
    (hq : ∀ f f', P f f' → Q f f') : RunL X V ls d d' Q := fun m hs hh => by
  obtain ⟨m', h1, h2, h3, h4⟩ := h m hs hh
  exact ⟨m', h1, h2, h3, hq _ _ h4⟩

/-- Flags stay. -/
def Keep (f f' : Flags) : Prop := f' = f

/-- Nothing is said about flags. -/
def Any (_ _ : Flags) : Prop := True

/-- A register instruction on `%eax`, the only value. -/
theorem RunL.eax {X : Frame} {V : Nat → Word} {v v' : Word} {l : Line}
    (h : ∀ m, Here X m [l] → m.reg .eax = v → ∃ m', Next X m m' l [] ∧ m'.reg = upd m.reg .eax v' ∧ m'.mem = m.mem ∧ m'.flags = m.flags) :
    RunL X V [l] [v] [v'] Keep := .one fun m hs hh => by
  obtain ⟨m', h1, h2, h3, h4⟩ := h m hh hs.top
  exact ⟨m', h1, hs.regs h3 (by rw [h2]; rfl) (by rw [h2]; rfl) rfl hs.len (by rw [h2]; rfl), h4⟩

theorem RunL.eax' {X : Frame} {V : Nat → Word} {v v' : Word} {l : Line}
    (h : ∀ m, Here X m [l] → m.reg .eax = v → ∃ m', Next X m m' l [] ∧ m'.reg = upd m.reg .eax v' ∧ m'.mem = m.mem) :
    RunL X V [l] [v] [v'] Any := .one fun m hs hh => by
  obtain ⟨m', h1, h2, h3⟩ := h m hh hs.top
  exact ⟨m', h1, hs.regs h3 (by rw [h2]; rfl) (by rw [h2]; rfl) rfl hs.len (by rw [h2]; rfl), trivial⟩

/-- A register instruction on `%ebx`, the last value. -/
theorem RunL.ebx {X : Frame} {V : Nat → Word} {v v' w : Word} {ds : List Word} {l : Line}
    (h : ∀ m, Here X m [l] → m.reg .ebx = v → ∃ m', Next X m m' l [] ∧ m'.reg = upd m.reg .ebx v' ∧ m'.mem = m.mem ∧ m'.flags = m.flags) :
    RunL X V [l] (v :: w :: ds) (v' :: w :: ds) Keep := .one fun m hs hh => by
  obtain ⟨m', h1, h2, h3, h4⟩ := h m hh hs.top.1
  exact ⟨m', h1, hs.regs h3 (by rw [h2]; rfl) (by rw [h2]; rfl) rfl hs.len ⟨by rw [h2]; rfl, by rw [h2]; exact hs.top.2⟩, h4⟩

theorem RunL.ebx' {X : Frame} {V : Nat → Word} {v v' w : Word} {ds : List Word} {l : Line}
    (h : ∀ m, Here X m [l] → m.reg .ebx = v → ∃ m', Next X m m' l [] ∧ m'.reg = upd m.reg .ebx v' ∧ m'.mem = m.mem) :
    RunL X V [l] (v :: w :: ds) (v' :: w :: ds) Any := .one fun m hs hh => by
  obtain ⟨m', h1, h2, h3⟩ := h m hh hs.top.1
  exact ⟨m', h1, hs.regs h3 (by rw [h2]; rfl) (by rw [h2]; rfl) rfl hs.len ⟨by rw [h2]; rfl, by rw [h2]; exact hs.top.2⟩, trivial⟩

/-! ## Operations on the last value -/

section
variable {X : Frame} {V : Nat → Word} {i : Info} {v w : Word} {d ds : List Word}

theorem valueToR_run (hr : Regs i (d.length + 1)) (c : Int) : RunL X V (valueToR i c) (v :: d) (BitVec.ofInt 32 c :: d) Keep := by
  cases d with
  | nil => unfold valueToR; rw [getR_one hr]; exact .eax fun m hh _ => i_movi_eax hh
  | cons w ds => unfold valueToR; rw [getR_two hr]; exact .ebx fun m hh _ => i_movi_ebx hh

theorem notR_run (hr : Regs i (d.length + 1)) : RunL X V (notR i) (v :: d) (~~~ v :: d) Keep := by
  cases d with
  | nil => unfold notR; rw [getR_one hr]; exact .eax fun m hh h => h ▸ i_not_eax hh
  | cons w ds => unfold notR; rw [getR_two hr]; exact .ebx fun m hh h => h ▸ i_not_ebx hh

theorem rAddValue_run (hr : Regs i (d.length + 1)) (c : Int) : RunL X V (rAddValue i c) (v :: d) ((v + BitVec.ofInt 32 c) :: d) Any := by
  unfold rAddValue
  split
  · cases d with
    | nil => rw [getR_one hr]; exact .eax' fun m hh h => h ▸ i_addi8_eax hh ‹_›
    | cons w ds => rw [getR_two hr]; exact .ebx' fun m hh h => h ▸ i_addi8_ebx hh ‹_›
  · cases d with
    | nil => rw [getR_one hr]; exact .eax' fun m hh h => h ▸ i_addi32_eax hh
    | cons w ds => rw [getR_two hr]; exact .ebx' fun m hh h => h ▸ i_addi32_ebx hh

/-- The zero flag says whether the value is zero. -/
def Zf (v : Word) (_ f' : Flags) : Prop := f'.zf = decide (v = 0)

theorem testR_run (hr : Regs i (d.length + 1)) : RunL X V (testR i) (v :: d) (v :: d) (Zf v) := by
  cases d with
  | nil =>
    unfold testR; rw [getR_one hr]
    exact .one fun m hs hh => by
      obtain ⟨m', h1, h2, h3, h4⟩ := i_test_eax hh
      exact ⟨m', h1, hs.same h3 h2, by rw [h4, show m.reg .eax = v from hs.top]; rfl⟩
  | cons w ds =>
    unfold testR; rw [getR_two hr]
    exact .one fun m hs hh => by
      obtain ⟨m', h1, h2, h3, h4⟩ := i_test_ebx hh
      exact ⟨m', h1, hs.same h3 h2, by rw [h4, hs.top.1]; rfl⟩

theorem rZero_eq : rZero i = testR i := by
  unfold rZero testR
  congr 2
  simp [String.append_assoc]

theorem rZero_run (hr : Regs i (d.length + 1)) : RunL X V (rZero i) (v :: d) (v :: d) (Zf v) := by
  rw [rZero_eq]; exact testR_run hr

theorem set_byte (v : BitVec 24) (b : Bool) :
    ((v ++ (if b then 1 else 0 : Word).extractLsb' 0 8).setWidth 8).setWidth 32 = (if b then 1 else 0 : Word) := by
  apply BitVec.eq_of_getLsbD_eq
  intro i hi
  simp only [BitVec.getLsbD_setWidth, BitVec.getLsbD_append, BitVec.getLsbD_extractLsb', hi, decide_true, Bool.true_and]
  by_cases h : i < 8
  · simp [h]
  · cases b
    · simp [h]
    · simp only [h, decide_false, Bool.false_and, if_true]
      have : i ≠ 0 := by omega
      simp [this]

/-- A condition and its instruction. -/
inductive SetName : String → CC → Prop
  | e : SetName "sete___" .e
  | a : SetName "seta___" .a
  | ae : SetName "setae__" .ae
  | b : SetName "setb___" .b
  | be : SetName "setbe__" .be
  | g : SetName "setg___" .g
  | ge : SetName "setge__" .ge
  | l : SetName "setl___" .l
  | le : SetName "setle__" .le

theorem set_eax {set : String} {c : CC} (hc : SetName set c) {m : Mach} {ls : List Line} (h : Here X m (.ins (set ++ "%al") [] :: ls)) :
    ∃ m', Next X m m' (.ins (set ++ "%al") []) ls ∧
      m'.reg = upd m.reg .eax ((m.reg .eax).extractLsb' 8 24 ++ (if CC.holds m.flags c then 1 else 0 : Word).extractLsb' 0 8) ∧
      m'.mem = m.mem ∧ m'.flags = m.flags := by
  cases hc
  · exact i_sete_eax h
  · exact i_seta_eax h
  · exact i_setae_eax h
  · exact i_setb_eax h
  · exact i_setbe_eax h
  · exact i_setg_eax h
  · exact i_setge_eax h
  · exact i_setl_eax h
  · exact i_setle_eax h

theorem set_ebx {set : String} {c : CC} (hc : SetName set c) {m : Mach} {ls : List Line} (h : Here X m (.ins (set ++ "%bl") [] :: ls)) :
    ∃ m', Next X m m' (.ins (set ++ "%bl") []) ls ∧
      m'.reg = upd m.reg .ebx ((m.reg .ebx).extractLsb' 8 24 ++ (if CC.holds m.flags c then 1 else 0 : Word).extractLsb' 0 8) ∧
      m'.mem = m.mem ∧ m'.flags = m.flags := by
  cases hc
  · exact i_sete_ebx h
  · exact i_seta_ebx h
  · exact i_setae_ebx h
  · exact i_setb_ebx h
  · exact i_setbe_ebx h
  · exact i_setg_ebx h
  · exact i_setge_ebx h
  · exact i_setl_ebx h
  · exact i_setle_ebx h

/-- A condition as a value; this piece depends on the flags before it. -/
theorem ccToR_run {set : String} {c : CC} (hc : SetName set c) (hr : Regs i (d.length + 1)) :
    ∀ m, St X V (v :: d) m → Here X m (ccToR set i) → ∃ m', Steps m m' ∧ m'.eip = m.eip + BitVec.ofNat 32 (textSize (ccToR set i)) ∧
      St X V ((if CC.holds m.flags c then 1 else 0) :: d) m' ∧ m'.flags = m.flags := by
  intro m hs hh
  cases d with
  | nil =>
    have hn : ccToR set i = [.ins (set ++ "%al") [], .ins "movzbl_%al,%eax" []] := by
      unfold ccToR; rw [getR_one hr]
      cases hc <;> rfl
    rw [hn] at hh ⊢
    obtain ⟨m1, h1, h2, h3, h4⟩ := set_eax hc hh
    obtain ⟨m2, g1, g2, g3, g4⟩ := i_movzbl_eax (h1.here (by rw [h3]; exact hs.prot))
    refine ⟨m2, h1.steps.trans g1.steps, ?_, ?_, by rw [g4, h4]⟩
    · rw [g1.eip, h1.eip, textSize_cons, textSize_cons, textSize_nil, BitVec.ofNat_add, BitVec.add_assoc]; rfl
    · refine hs.regs (by rw [g3, h3]) (by rw [g2, h2]; rfl) (by rw [g2, h2]; rfl) rfl hs.len ?_
      rw [g2, h2]
      exact set_byte _ _
  | cons w ds =>
    have hn : ccToR set i = [.ins (set ++ "%bl") [], .ins "movzbl_%bl,%ebx" []] := by
      unfold ccToR; rw [getR_two hr]
      cases hc <;> rfl
    rw [hn] at hh ⊢
    obtain ⟨m1, h1, h2, h3, h4⟩ := set_ebx hc hh
    obtain ⟨m2, g1, g2, g3, g4⟩ := i_movzbl_ebx (h1.here (by rw [h3]; exact hs.prot))
    refine ⟨m2, h1.steps.trans g1.steps, ?_, ?_, by rw [g4, h4]⟩
    · rw [g1.eip, h1.eip, textSize_cons, textSize_cons, textSize_nil, BitVec.ofNat_add, BitVec.add_assoc]; rfl
    · refine hs.regs (by rw [g3, h3]) (by rw [g2, h2]; rfl) (by rw [g2, h2]; rfl) rfl hs.len ⟨?_, ?_⟩
      · rw [g2, h2]
        exact set_byte _ _
      · rw [g2, h2]; exact hs.top.2

theorem zfToR_eq : zfToR i = ccToR "sete___" i := rfl

theorem rNegate_eq : rNegate i = ccToR "sete___" i := rfl

/-- The conversions, each a list of at most one piece. -/
theorem convertR0_run (hr : Regs i (d.length + 1)) (t : Ty) :
    (convertR0 i t = [] ∧ conv t v = v) ∨ ∃ ls, convertR0 i t = [ls] ∧ RunL X V ls (v :: d) (conv t v :: d) Keep := by
  unfold convertR0 conv
  split
  · refine .inr ⟨_, rfl, ?_⟩
    cases d with
    | nil => unfold byteSignedR; rw [getR_one hr]; exact .eax fun m hh h => h ▸ i_movsbl_eax hh
    | cons w ds => unfold byteSignedR; rw [getR_two hr]; exact .ebx fun m hh h => h ▸ i_movsbl_ebx hh
  · split
    · refine .inr ⟨_, rfl, ?_⟩
      cases d with
      | nil => unfold byteR; rw [getR_one hr]; exact .eax fun m hh h => h ▸ i_movzbl_eax hh
      | cons w ds => unfold byteR; rw [getR_two hr]; exact .ebx fun m hh h => h ▸ i_movzbl_ebx hh
    · split
      · refine .inr ⟨_, rfl, ?_⟩
        cases d with
        | nil => unfold wordSignedR; rw [getR_one hr]; exact .eax fun m hh h => h ▸ i_movswl_eax hh
        | cons w ds => unfold wordSignedR; rw [getR_two hr]; exact .ebx fun m hh h => h ▸ i_movswl_ebx hh
      · split
        · refine .inr ⟨_, rfl, ?_⟩
          cases d with
          | nil => unfold wordR; rw [getR_one hr]; exact .eax fun m hh h => h ▸ i_movzwl_eax hh
          | cons w ds => unfold wordR; rw [getR_two hr]; exact .ebx fun m hh h => h ▸ i_movzwl_ebx hh
        · exact .inl ⟨rfl, rfl⟩

end

end Mes.X86
