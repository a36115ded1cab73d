import Verif.Proof.MesccState

/-
Operations on the last two values, the stack, the variables, and the position in the text.
-/
namespace Mes.X86
open Mes.Mescc Mes.CLang

section
variable {X : Frame} {V : Nat → Word} {i : Info} {v w x : Word} {d ds : List Word}

/-- An instruction that changes `%eax`, the last value but one. -/
theorem RunL.two {w' : Word} {l : Line}
    (h : ∀ m, Here X m [l] → m.reg .ebx = v → m.reg .eax = w → ∃ m', Next X m m' l [] ∧ m'.reg = upd m.reg .eax w' ∧ m'.mem = m.mem) :
    RunL X V [l] (v :: w :: ds) (v :: w' :: ds) Any := .one fun m hs hh => by
  obtain ⟨m', h1, h2, h3⟩ := h m hh hs.top.1 hs.top.2
  exact ⟨m', h1, hs.regs h3 (by rw [h2]; rfl) (by rw [h2]; rfl) rfl hs.len ⟨by rw [h2]; exact hs.top.1, by rw [h2]; rfl⟩, trivial⟩

theorem r0AddR1_run (hr : Regs i (ds.length + 2)) : RunL X V (r0AddR1 i) (v :: w :: ds) (v :: (w + v) :: ds) Any := by
  unfold r0AddR1; rw [getR0_two hr, getR1_two hr]
  exact .two fun m hh h h' => h ▸ h' ▸ i_add hh

theorem r0AndR1_run (hr : Regs i (ds.length + 2)) : RunL X V (r0AndR1 i) (v :: w :: ds) (v :: (w &&& v) :: ds) Any := by
  unfold r0AndR1; rw [getR0_two hr, getR1_two hr]
  exact .two fun m hh h h' => h ▸ h' ▸ i_and hh

theorem r0OrR1_run (hr : Regs i (ds.length + 2)) : RunL X V (r0OrR1 i) (v :: w :: ds) (v :: (w ||| v) :: ds) Any := by
  unfold r0OrR1; rw [getR0_two hr, getR1_two hr]
  exact .two fun m hh h h' => h ▸ h' ▸ i_or hh

theorem r0XorR1_run (hr : Regs i (ds.length + 2)) : RunL X V (r0XorR1 i) (v :: w :: ds) (v :: (w ^^^ v) :: ds) Any := by
  unfold r0XorR1; rw [getR0_two hr, getR1_two hr]
  exact .two fun m hh h h' => h ▸ h' ▸ i_xor hh

theorem r0SubR1_run (hr : Regs i (ds.length + 2)) :
    RunL X V (r0SubR1 i) (v :: w :: ds) (v :: (w - v) :: ds) (fun _ f' => f' = subFlags w v) := by
  unfold r0SubR1; rw [getR0_two hr, getR1_two hr]
  exact .one fun m hs hh => by
    obtain ⟨m', h1, h2, h3, h4⟩ := i_sub hh
    rw [hs.top.1, hs.top.2] at h2 h4
    exact ⟨m', h1, hs.regs h3 (by rw [h2]; rfl) (by rw [h2]; rfl) rfl hs.len ⟨by rw [h2]; exact hs.top.1, by rw [h2]; rfl⟩, h4⟩

theorem swapR0R1_run (hr : Regs i (ds.length + 2)) : RunL X V (swapR0R1 i) (v :: w :: ds) (w :: v :: ds) Any := by
  unfold swapR0R1; rw [getR0_two hr, getR1_two hr]
  exact .one fun m hs hh => by
    obtain ⟨m', h1, h2, h3, h4⟩ := i_xchg hh
    exact ⟨m', h1, hs.regs h3 (by rw [h2]; rfl) (by rw [h2]; rfl) rfl hs.len
      ⟨by rw [h2]; exact hs.top.2, by rw [h2]; exact hs.top.1⟩, trivial⟩

theorem edx_free {n : Nat} (hr : Regs i (n + 2)) : "edx" ∉ i.allocated := by
  rw [hr.allocated2]; decide

theorem r0MulR1_run (hr : Regs i (ds.length + 2)) : RunL X V (r0MulR1 i) (v :: w :: ds) (v :: (w * v) :: ds) Any := by
  unfold r0MulR1; simp only [if_pos (edx_free hr), getR0_two hr, getR1_two hr, if_true, List.nil_append, List.append_nil]
  exact .one fun m hs hh => by
    obtain ⟨m', h1, h2, h3⟩ := i_mul hh
    rw [hs.top.1, hs.top.2, mul_word] at h2
    exact ⟨m', h1, hs.regs h3 (by rw [h2]; rfl) (by rw [h2]; rfl) rfl hs.len ⟨by rw [h2]; exact hs.top.1, by rw [h2]; rfl⟩, trivial⟩

theorem size2 {m m1 m2 : Mach} {l l' : Line} {ls ls' : List Line} (h1 : Next X m m1 l ls) (h2 : Next X m1 m2 l' ls') :
    m2.eip = m.eip + BitVec.ofNat 32 (textSize [l, l']) := by
  rw [h2.eip, h1.eip, textSize_cons, textSize_cons, textSize_nil, BitVec.ofNat_add, BitVec.add_assoc]; rfl

theorem size3 {m m1 m2 m3 : Mach} {l l' l'' : Line} {ls ls' ls'' : List Line} (h1 : Next X m m1 l ls) (h2 : Next X m1 m2 l' ls')
    (h3 : Next X m2 m3 l'' ls'') : m3.eip = m.eip + BitVec.ofNat 32 (textSize [l, l', l'']) := by
  rw [h3.eip, size2 h1 h2, textSize_cons, textSize_cons, textSize_cons, textSize_cons, textSize_cons, textSize_nil, BitVec.add_assoc,
    ← BitVec.ofNat_add]
  congr 2; omega

theorem r0ShlR1_run (hr : Regs i (ds.length + 2)) :
    RunL X V (r0ShlR1 i) (v :: w :: ds) (v :: (w <<< ((v.extractLsb' 0 8).toNat % 32)) :: ds) Any := by
  unfold r0ShlR1; rw [getR0_two hr, getR1_two hr]
  intro m hs hh
  obtain ⟨m1, h1, h2, h3, -⟩ := i_mov_ebx_ecx hh
  obtain ⟨m2, g1, g2, g3⟩ := i_shl (h1.here (by rw [h3]; exact hs.prot))
  refine ⟨m2, h1.steps.trans g1.steps, size2 h1 g1, ?_, trivial⟩
  refine hs.regs (by rw [g3, h3]) (by rw [g2, h2]; rfl) (by rw [g2, h2]; rfl) rfl hs.len ⟨?_, ?_⟩
  · rw [g2, h2]; exact hs.top.1
  · rw [g2, h2]
    show m.reg .eax <<< (((m.reg .ebx).extractLsb' 0 8).toNat % 32) = _
    rw [hs.top.1, hs.top.2]

theorem r0ShrR1_run (hr : Regs i (ds.length + 2)) :
    RunL X V (r0ShrR1 i) (v :: w :: ds) (v :: (w >>> ((v.extractLsb' 0 8).toNat % 32)) :: ds) Any := by
  unfold r0ShrR1; rw [getR0_two hr, getR1_two hr]
  intro m hs hh
  obtain ⟨m1, h1, h2, h3, -⟩ := i_mov_ebx_ecx hh
  obtain ⟨m2, g1, g2, g3⟩ := i_shr (h1.here (by rw [h3]; exact hs.prot))
  refine ⟨m2, h1.steps.trans g1.steps, size2 h1 g1, ?_, trivial⟩
  refine hs.regs (by rw [g3, h3]) (by rw [g2, h2]; rfl) (by rw [g2, h2]; rfl) rfl hs.len ⟨?_, ?_⟩
  · rw [g2, h2]; exact hs.top.1
  · rw [g2, h2]
    show m.reg .eax >>> (((m.reg .ebx).extractLsb' 0 8).toNat % 32) = _
    rw [hs.top.1, hs.top.2]

/-- Division with signs. -/
theorem r0DivR1_signed (hr : Regs i (ds.length + 2)) (h0 : v.toInt ≠ 0) (hq : -2 ^ 31 ≤ w.toInt.tdiv v.toInt ∧ w.toInt.tdiv v.toInt < 2 ^ 31) :
    RunL X V (r0DivR1 i true) (v :: w :: ds) (v :: BitVec.ofInt 32 (w.toInt.tdiv v.toInt) :: ds) Any := by
  unfold r0DivR1; simp only [if_pos (edx_free hr), getR0_two hr, getR1_two hr, if_true, List.nil_append, List.append_nil]
  intro m hs hh
  obtain ⟨m1, h1, h2, h3, -⟩ := i_cltd hh
  have e1 : m1.reg .ebx = v := by rw [h2]; exact hs.top.1
  have e2 : (m1.reg .edx ++ m1.reg .eax).toInt = w.toInt := by
    rw [h2]; show ((if (m.reg .eax).msb then (-1 : Word) else 0) ++ m.reg .eax).toInt = _
    rw [hs.top.2, idiv_toInt]
  obtain ⟨m2, g1, g2, g3⟩ := i_idiv (h1.here (by rw [h3]; exact hs.prot)) (by rw [e1]; exact h0) (by rw [e1, e2]; exact hq)
  rw [e1, e2] at g2
  refine ⟨m2, h1.steps.trans g1.steps, size2 h1 g1, ?_, trivial⟩
  refine hs.regs (by rw [g3, h3]) (by rw [g2, h2]; rfl) (by rw [g2, h2]; rfl) rfl hs.len ⟨?_, ?_⟩
  · rw [g2]; exact e1
  · rw [g2]; rfl

theorem r0DivR1_unsigned (hr : Regs i (ds.length + 2)) (h0 : v.toNat ≠ 0) :
    RunL X V (r0DivR1 i false) (v :: w :: ds) (v :: BitVec.ofNat 32 (w.toNat / v.toNat) :: ds) Any := by
  unfold r0DivR1; simp only [if_pos (edx_free hr), getR0_two hr, getR1_two hr, if_true, List.nil_append, List.append_nil, Bool.false_eq_true, if_false]
  intro m hs hh
  obtain ⟨m1, h1, h2, h3⟩ := i_xor_edx hh
  have e1 : m1.reg .ebx = v := by rw [h2]; exact hs.top.1
  have e2 : m1.reg .eax = w := by rw [h2]; exact hs.top.2
  obtain ⟨m2, g1, g2, g3⟩ := i_div (h1.here (by rw [h3]; exact hs.prot)) (by rw [e1]; exact h0) (by rw [h2]; rfl)
  rw [e1, e2] at g2
  refine ⟨m2, h1.steps.trans g1.steps, size2 h1 g1, ?_, trivial⟩
  refine hs.regs (by rw [g3, h3]) (by rw [g2, h2]; rfl) (by rw [g2, h2]; rfl) rfl hs.len ⟨?_, ?_⟩
  · rw [g2]; exact e1
  · rw [g2]; rfl

theorem r0ModR1_signed (hr : Regs i (ds.length + 2)) (h0 : v.toInt ≠ 0) (hq : -2 ^ 31 ≤ w.toInt.tdiv v.toInt ∧ w.toInt.tdiv v.toInt < 2 ^ 31) :
    RunL X V (r0ModR1 i true) (v :: w :: ds) (v :: BitVec.ofInt 32 (w.toInt.tmod v.toInt) :: ds) Any := by
  unfold r0ModR1; simp only [if_pos (edx_free hr), getR0_two hr, getR1_two hr, if_true, List.nil_append, List.append_nil]
  intro m hs hh
  obtain ⟨m1, h1, h2, h3, -⟩ := i_cltd hh
  have e1 : m1.reg .ebx = v := by rw [h2]; exact hs.top.1
  have e2 : (m1.reg .edx ++ m1.reg .eax).toInt = w.toInt := by
    rw [h2]; show ((if (m.reg .eax).msb then (-1 : Word) else 0) ++ m.reg .eax).toInt = _
    rw [hs.top.2, idiv_toInt]
  obtain ⟨m2, g1, g2, g3⟩ := i_idiv (h1.here (by rw [h3]; exact hs.prot)) (by rw [e1]; exact h0) (by rw [e1, e2]; exact hq)
  rw [e1, e2] at g2
  obtain ⟨m3, k1, k2, k3, -⟩ := i_mov_edx_eax (g1.here (by rw [g3, h3]; exact hs.prot))
  refine ⟨m3, (h1.steps.trans g1.steps).trans k1.steps, size3 h1 g1 k1, ?_, trivial⟩
  refine hs.regs (by rw [k3, g3, h3]) (by rw [k2, g2, h2]; rfl) (by rw [k2, g2, h2]; rfl) rfl hs.len ⟨?_, ?_⟩
  · rw [k2, g2]; exact e1
  · rw [k2, g2]; rfl

theorem r0ModR1_unsigned (hr : Regs i (ds.length + 2)) (h0 : v.toNat ≠ 0) :
    RunL X V (r0ModR1 i false) (v :: w :: ds) (v :: BitVec.ofNat 32 (w.toNat % v.toNat) :: ds) Any := by
  unfold r0ModR1; simp only [if_pos (edx_free hr), getR0_two hr, getR1_two hr, if_true, List.nil_append, List.append_nil, Bool.false_eq_true, if_false]
  intro m hs hh
  obtain ⟨m1, h1, h2, h3⟩ := i_xor_edx hh
  have e1 : m1.reg .ebx = v := by rw [h2]; exact hs.top.1
  have e2 : m1.reg .eax = w := by rw [h2]; exact hs.top.2
  obtain ⟨m2, g1, g2, g3⟩ := i_div (h1.here (by rw [h3]; exact hs.prot)) (by rw [e1]; exact h0) (by rw [h2]; rfl)
  rw [e1, e2] at g2
  obtain ⟨m3, k1, k2, k3, -⟩ := i_mov_edx_eax (g1.here (by rw [g3, h3]; exact hs.prot))
  refine ⟨m3, (h1.steps.trans g1.steps).trans k1.steps, size3 h1 g1 k1, ?_, trivial⟩
  refine hs.regs (by rw [k3, g3, h3]) (by rw [k2, g2, h2]; rfl) (by rw [k2, g2, h2]; rfl) rfl hs.len ⟨?_, ?_⟩
  · rw [k2, g2]; exact e1
  · rw [k2, g2]; rfl

/-- `lahf; xor $0x40,%ah; sahf`: the zero flag is turned over, and `%ah` is lost. -/
theorem xorZf_run : ∃ f : Word → Flags → Word, ∀ m, St X V [v] m → Here X m xorZf →
    ∃ m', Steps m m' ∧ m'.eip = m.eip + BitVec.ofNat 32 (textSize xorZf) ∧ St X V [f v m.flags] m' ∧ m'.flags.zf = !m.flags.zf := by
  refine ⟨fun v fl => let a := v.extractLsb' 16 16 ++ ((flagByte fl).setWidth 32).extractLsb' 0 8 ++ v.extractLsb' 0 8
    a.extractLsb' 16 16 ++ ((((((a.extractLsb' 8 8).setWidth 32).setWidth 8 ^^^ (0x40 : Byte8)).setWidth 32).extractLsb' 0 8)) ++ a.extractLsb' 0 8, ?_⟩
  intro m hs hh
  unfold xorZf at hh
  obtain ⟨m1, h1, h2, h3, -⟩ := i_lahf hh
  obtain ⟨m2, g1, g2, g3⟩ := i_xor_ah (h1.here (by rw [h3]; exact hs.prot))
  obtain ⟨m3, k1, k2, k3, k4⟩ := i_sahf (g1.here (by rw [g3, h3]; exact hs.prot))
  refine ⟨m3, (h1.steps.trans g1.steps).trans k1.steps, size3 h1 g1 k1, ?_, ?_⟩
  · refine hs.regs (by rw [k3, g3, h3]) (by rw [k2, g2, h2]; rfl) (by rw [k2, g2, h2]; rfl) rfl hs.len ?_
    have := hs.top
    rw [k2, g2, h2]
    show _ = _
    rw [← show m.reg .eax = v from hs.top]
    rfl
  · rw [k4, g2]
    show ((((m1.reg .eax).extractLsb' 16 16 ++ ((((((m1.reg .eax).extractLsb' 8 8).setWidth 32).setWidth 8 ^^^ (0x40 : Byte8)).setWidth 32).extractLsb' 0 8) ++ (m1.reg .eax).extractLsb' 0 8 : Word).extractLsb' 8 8).setWidth 32).getLsbD 6 = _
    have e : ((m1.reg .eax).extractLsb' 8 8).getLsbD 6 = m.flags.zf := by
      rw [h2]
      show (((m.reg .eax).extractLsb' 16 16 ++ ((flagByte m.flags).setWidth 32).extractLsb' 0 8 ++ (m.reg .eax).extractLsb' 0 8 : Word).extractLsb' 8 8).getLsbD 6 = _
      simp only [BitVec.getLsbD_extractLsb', BitVec.getLsbD_append, BitVec.getLsbD_setWidth]
      simp
      unfold flagByte bit
      cases m.flags.sf <;> cases m.flags.zf <;> cases m.flags.af <;> cases m.flags.pf <;> cases m.flags.cf <;> rfl
    simp only [BitVec.getLsbD_extractLsb', BitVec.getLsbD_setWidth, BitVec.getLsbD_append, BitVec.getLsbD_xor] at e ⊢
    simp at e ⊢
    rw [e]

end

/-! ## The stack -/

section
variable {X : Frame} {V : Nat → Word} {i : Info} {v w x : Word} {d ds : List Word}

theorem Stk.poke {mem : Word → Byte8} (hX : X.Ok) {j : Nat} (hj : j < X.words) (u : Word) (ds : List Word) :
    ∀ k, j < k → k + ds.length ≤ X.words → Stk X mem k ds → Stk X (poke mem (X.at j) u) k ds := by
  induction ds with
  | nil => intros; trivial
  | cons w ds ih =>
    intro k hk hl h
    simp only [List.length_cons] at hl
    refine ⟨?_, ih (k + 1) (by omega) (by omega) h.2⟩
    rw [word_poke X hX mem (by omega) hj, if_neg (by omega)]
    exact h.1

/-- `push %eax; mov %ebx,%eax`. -/
theorem push_run (hX : X.Ok) (hr : Regs i (ds.length + 2)) (hl : ds.length + 3 ≤ X.room + 2) :
    RunL X V (pushR0 i ++ r1ToR0 i) (v :: w :: ds) (v :: v :: w :: ds) Keep := by
  unfold pushR0 r1ToR0; rw [getR0_two hr, getR1_two hr]
  intro m hs hh
  obtain ⟨m1, h1, h2, h3, h4⟩ := i_push_eax hh
  have hsp : m.reg .esp - 4 = X.at (X.room - (ds.length + 1)) := by
    rw [hs.sp, show X.room - ((v :: w :: ds).length - 2) = X.room - (ds.length + 1) + 1 by simp only [List.length_cons]; omega, X.at_sub4]
  have hw : X.room - (ds.length + 1) < X.words := by unfold Frame.words; omega
  rw [hsp, hs.top.2] at h3
  have hprot : ∀ x, ¬ X.Inside x → m1.mem x = X.M x := fun x hx => by rw [h3, poke_outside X hX _ hw _ hx]; exact hs.prot x hx
  obtain ⟨m2, g1, g2, g3, g4⟩ := i_mov_ebx_eax (h1.here hprot)
  refine ⟨m2, h1.steps.trans g1.steps, size2 h1 g1, ⟨?_, hl, ?_, ⟨?_, ?_⟩, ?_, ?_, ?_⟩, by show _ = _; rw [g4, h4]⟩
  · rw [g2, h2]; exact hs.bp
  · rw [g2, h2]; show m.reg .esp - 4 = _; rw [hsp]; rfl
  · rw [g2, h2]; exact hs.top.1
  · rw [g2, h2]; exact hs.top.1
  · rw [g3, h3]
    show word _ (X.at (X.room - (ds.length + 1))) = w ∧ Stk X _ (X.room - (ds.length + 1) + 1) ds
    refine ⟨by rw [word_poke X hX _ hw hw, if_pos rfl], ?_⟩
    rw [show X.room - (ds.length + 1) + 1 = X.room - ds.length by omega]
    exact Stk.poke hX hw _ ds _ (by omega) (by unfold Frame.words; omega) hs.stk
  · intro k h1 h2
    rw [g3, h3, word_poke X hX _ h2 hw, if_neg (by omega)]
    exact hs.vars k h1 h2
  · intro x hx; rw [g3]; exact hprot x hx

/-- `mov %eax,%ebx; pop %eax`. -/
theorem pop_run (h0 : getR0 i = "eax") (h1 : getR1 i = "ebx") :
    RunL X V (r0ToR1 i ++ popR0 i) (v :: w :: x :: ds) (w :: x :: ds) Keep := by
  unfold popR0 r0ToR1; rw [h0, h1]
  intro m hs hh
  obtain ⟨m1, h1, h2, h3, h4⟩ := i_mov_eax_ebx hh
  obtain ⟨m2, g1, g2, g3, g4⟩ := i_pop_eax (h1.here (by rw [h3]; exact hs.prot))
  have hl := hs.len
  simp only [List.length_cons] at hl
  refine ⟨m2, h1.steps.trans g1.steps, size2 h1 g1, ⟨?_, ?_, ?_, ⟨?_, ?_⟩, ?_, ?_, ?_⟩, by show _ = _; rw [g4, h4]⟩
  · rw [g2, h2]; exact hs.bp
  · simp only [List.length_cons]; omega
  · rw [g2, h2]; show m.reg .esp + 4 = _; rw [hs.sp, X.at_add4]; congr 1; simp only [List.length_cons]; omega
  · rw [g2, h2]; exact hs.top.2
  · rw [g2, h2]; show word m1.mem (m.reg .esp) = x; rw [h3, hs.sp]; exact hs.stk.1
  · rw [g3, h3]
    have := hs.stk.2
    show Stk X m.mem (X.room - ds.length) ds
    rw [show X.room - ((v :: w :: x :: ds).length - 2) + 1 = X.room - ds.length by simp only [List.length_cons]; omega] at this
    exact this
  · intro k h1 h2; rw [g3, h3]; exact hs.vars k h1 h2
  · intro y hy; rw [g3, h3]; exact hs.prot y hy

/-! ## Variables -/

/-- The index of the word of a variable. -/
def slot (X : Frame) (id : Int) : Nat := ((X.room + X.locals : Nat) - id).toNat

theorem slot_address (id : Int) (h : 0 ≤ ((X.room + X.locals : Nat) : Int) - id) :
    X.bp + BitVec.ofInt 32 (0 - 4 * id) = X.at (slot X id) := by
  unfold Frame.bp Frame.at slot
  rw [BitVec.add_assoc]
  congr 1
  have : ∀ n : Nat, BitVec.ofNat 32 n = BitVec.ofInt 32 (n : Int) := fun n => (ofInt_natCast n).symm
  rw [this, this, ← BitVec.ofInt_add]
  congr 1
  omega

theorem localToR_run (hr : Regs i (d.length + 1)) (id : Int) (h : 0 ≤ ((X.room + X.locals : Nat) : Int) - id) (h1 : X.room ≤ slot X id)
    (h2 : slot X id < X.words) : RunL X V (localToR i id) (v :: d) (V (slot X id) :: d) Keep := by
  have hv : ∀ m, St X V (v :: d) m → word m.mem (m.reg .ebp + BitVec.ofInt 32 (0 - 4 * id)) = V (slot X id) := fun m hs => by
    rw [hs.bp, slot_address id h]; exact hs.vars _ h1 h2
  unfold localToR
  dsimp only
  split
  · cases d with
    | nil =>
      rw [getR_one hr]
      exact .one fun m hs hh => by
        obtain ⟨m', h1, h2, h3, h4⟩ := i_load8_eax hh ‹_›
        rw [hv m hs] at h2
        exact ⟨m', h1, hs.regs h3 (by rw [h2]; rfl) (by rw [h2]; rfl) rfl hs.len (by rw [h2]; rfl), h4⟩
    | cons w ds =>
      rw [getR_two hr]
      exact .one fun m hs hh => by
        obtain ⟨m', h1, h2, h3, h4⟩ := i_load8_ebx hh ‹_›
        rw [hv m hs] at h2
        exact ⟨m', h1, hs.regs h3 (by rw [h2]; rfl) (by rw [h2]; rfl) rfl hs.len ⟨by rw [h2]; rfl, by rw [h2]; exact hs.top.2⟩, h4⟩
  · cases d with
    | nil =>
      rw [getR_one hr]
      exact .one fun m hs hh => by
        obtain ⟨m', h1, h2, h3, h4⟩ := i_load32_eax hh
        rw [hv m hs] at h2
        exact ⟨m', h1, hs.regs h3 (by rw [h2]; rfl) (by rw [h2]; rfl) rfl hs.len (by rw [h2]; rfl), h4⟩
    | cons w ds =>
      rw [getR_two hr]
      exact .one fun m hs hh => by
        obtain ⟨m', h1, h2, h3, h4⟩ := i_load32_ebx hh
        rw [hv m hs] at h2
        exact ⟨m', h1, hs.regs h3 (by rw [h2]; rfl) (by rw [h2]; rfl) rfl hs.len ⟨by rw [h2]; rfl, by rw [h2]; exact hs.top.2⟩, h4⟩

end

/-! ## Positions -/

/-- The address of the end of the text so far. -/
def pos (base : Word) (i : Info) : Word := base + BitVec.ofNat 32 (textSize i.text.flatten)

theorem pos_append (base : Word) (i : Info) (ls : List Line) : pos base (appendText i [ls]) = pos base i + BitVec.ofNat 32 (textSize ls) := by
  unfold pos appendText
  simp only [List.flatten_append, List.flatten_cons, List.flatten_nil, List.append_nil, textSize_append, BitVec.ofNat_add, BitVec.add_assoc]

section
variable {X : Frame} {V : Nat → Word} {T : List (List Line)} {base : Word} {i : Info} {d d' : List Word} {m : Mach}

theorem here_of (hT : CodeAt X base T.flatten) {ls : List Line} (hp : (appendText i [ls]).text <+: T) (he : m.eip = pos base i)
    (hm : ∀ x, ¬ X.Inside x → m.mem x = X.M x) : Here X m ls := by
  obtain ⟨r, hr⟩ := hp
  refine ⟨?_, hm⟩
  rw [← hr, show (appendText i [ls]).text = i.text ++ [ls] from rfl, List.append_assoc, List.flatten_append, List.flatten_append,
    codeAt_append] at hT
  have := hT.2
  rw [codeAt_append] at this
  rw [he]
  simpa [pos] using this.1

theorem label_pos (hT : CodeAt X base T.flatten) {l : String} (hp : (appendText i [[.label l]]).text <+: T) : X.env l = pos base i := by
  obtain ⟨r, hr⟩ := hp
  rw [← hr, show (appendText i [[Line.label l]]).text = i.text ++ [[.label l]] from rfl, List.append_assoc, List.flatten_append,
    codeAt_append] at hT
  exact hT.2.2.1 l rfl

/-- The machine comes to the end of the text so far, with these values. -/
def Reach (X : Frame) (V : Nat → Word) (base : Word) (m : Mach) (i : Info) (d : List Word) (Q : Flags → Prop) : Prop :=
  ∃ m', Steps m m' ∧ m'.eip = pos base i ∧ St X V d m' ∧ Q m'.flags

theorem Reach.start (he : m.eip = pos base i) (hs : St X V d m) : Reach X V base m i d (fun f => f = m.flags) := ⟨m, .refl _, he, hs, rfl⟩

theorem Reach.weak {Q R : Flags → Prop} (h : Reach X V base m i d Q) (hq : ∀ f, Q f → R f) : Reach X V base m i d R := by
  obtain ⟨m', h1, h2, h3, h4⟩ := h
  exact ⟨m', h1, h2, h3, hq _ h4⟩

/-- One more piece of text. -/
theorem Reach.run (hT : CodeAt X base T.flatten) {Q R : Flags → Prop} {P : Flags → Flags → Prop} {ls : List Line} (h : Reach X V base m i d Q)
    (hr : RunL X V ls d d' P) (hp : (appendText i [ls]).text <+: T) (hq : ∀ f f', Q f → P f f' → R f') :
    Reach X V base m (appendText i [ls]) d' R := by
  obtain ⟨m', h1, h2, h3, h4⟩ := h
  obtain ⟨m'', g1, g2, g3, g4⟩ := hr m' h3 (here_of hT hp h2 h3.prot)
  exact ⟨m'', h1.trans g1, by rw [g2, h2, pos_append], g3, hq _ _ h4 g4⟩

theorem prefix_append (t : List (List Line)) : i.text <+: (appendText i t).text := ⟨t, rfl⟩

theorem alloc_text : i.text <+: (allocateRegister i).text := by
  unfold allocateRegister
  split
  · exact List.prefix_refl _
  · exact ⟨_, rfl⟩

theorem free_text : i.text <+: (freeRegister i).text := by
  unfold freeRegister
  split
  · exact List.prefix_refl _
  · exact ⟨_, rfl⟩

theorem Reach.alloc (hX : X.Ok) (hT : CodeAt X base T.flatten) {Q : Flags → Prop} (h : Reach X V base m i d Q) (hr : Regs i d.length)
    (hl : d.length + 1 ≤ X.room + 2) (hp : (allocateRegister i).text <+: T) : ∃ u, Reach X V base m (allocateRegister i) (u :: d) Q := by
  have ha := hr.allocated
  unfold allocateRegister at hp ⊢
  match d, hr, ha, h with
  | [], hr, ha, h =>
    obtain ⟨m', h1, h2, h3, h4⟩ := h
    rw [if_pos (by rw [ha]; decide)]
    exact ⟨m'.reg .eax, m', h1, h2, h3.regs rfl rfl rfl rfl hl rfl, h4⟩
  | [v], hr, ha, h =>
    obtain ⟨m', h1, h2, h3, h4⟩ := h
    rw [if_pos (by rw [ha]; exact (by decide : 1 < maxRegisters))]
    exact ⟨m'.reg .ebx, m', h1, h2, h3.regs rfl rfl rfl rfl hl ⟨rfl, h3.top⟩, h4⟩
  | v :: w :: ds, hr, ha, h =>
    have ha : i.allocated = ["ebx", "eax"] := hr.allocated2
    rw [if_neg (by rw [ha]; decide)] at hp ⊢
    refine ⟨v, ?_⟩
    exact Reach.run (i := { i with pushed := i.pushed + 1 }) hT h (push_run (i := i) hX hr (by simpa using hl)) hp (fun f f' h1 (h2 : Keep f f') => (show f' = f from h2) ▸ h1)

theorem Reach.free (hT : CodeAt X base T.flatten) {Q : Flags → Prop} {v : Word} (h : Reach X V base m i (v :: d) Q) (hr : Regs i (d.length + 1))
    (hp : (freeRegister i).text <+: T) : Reach X V base m (freeRegister i) d Q := by
  have hpu := hr.pushed
  unfold freeRegister at hp ⊢
  match d, hr, hpu, h with
  | [], hr, hpu, h =>
    obtain ⟨m', h1, h2, h3, h4⟩ := h
    rw [if_pos (show i.pushed = 0 from hpu)]
    exact ⟨m', h1, h2, h3.regs rfl rfl rfl rfl (by simp) trivial, h4⟩
  | [w], hr, hpu, h =>
    obtain ⟨m', h1, h2, h3, h4⟩ := h
    rw [if_pos (show i.pushed = 0 from hpu)]
    exact ⟨m', h1, h2, h3.regs rfl rfl rfl rfl (by simp) h3.top.2, h4⟩
  | w :: x :: ds, hr, hpu, h =>
    have hn : ¬ i.pushed = 0 := by rw [hpu]; simp only [List.length_cons]; omega
    rw [if_neg hn] at hp ⊢
    have hr2 : Regs i (ds.length + 1 + 2) := hr
    exact Reach.run (i := { i with pushed := i.pushed - 1 }) hT h (pop_run (i := i) (getR0_two hr2) (getR1_two hr2)) hp
      (fun f f' h1 (h2 : Keep f f') => (show f' = f from h2) ▸ h1)

end

end Mes.X86
