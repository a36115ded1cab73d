import Verif.Proof.MesccStmt
import Verif.Spec.MesccText

/-
Every mnemonic that the compiler emits is defined.
-/
namespace Mes.X86
open Mes.Mescc Mes.CLang

/-- The mnemonic of a line has a definition in x86.M1. -/
def Known : Line → Bool
  | .ins name _ => (defines.lookup name).isSome
  | _ => true

def AllDef (ls : List Line) : Prop := ∀ l ∈ ls, Known l = true

theorem assemble_some (env : String → Word) : ∀ (ls : List Line) (a : Word), AllDef ls → ∃ bs, assemble env a ls = some bs
  | [], _, _ => ⟨[], rfl⟩
  | l :: ls, a, h => by
    have hl := h l (List.mem_cons_self ..)
    have : ∃ bs, l.bytes env a = some bs := by
      cases l with
      | ins name args =>
        obtain ⟨b, hb⟩ := Option.isSome_iff_exists.1 (show (defines.lookup name).isSome = true from hl)
        exact ⟨_, by show Option.map _ _ = _; rw [hb]; rfl⟩
      | label x => exact ⟨[], rfl⟩
      | comment => exact ⟨[], rfl⟩
    obtain ⟨bs, hb⟩ := this
    obtain ⟨cs, hc⟩ := assemble_some env ls (a + BitVec.ofNat 32 bs.length) fun l hl => h l (List.mem_cons_of_mem _ hl)
    exact ⟨bs ++ cs, by unfold assemble; rw [hb]; show (do let cs ← assemble _ _ ls; some (bs ++ cs)) = _; rw [hc]; rfl⟩

theorem assemble_defined (env : String → Word) : ∀ (ls : List Line) (a : Word) (bs : List Byte8), assemble env a ls = some bs → AllDef ls
  | [], _, _, _ => fun l hl => (nomatch hl)
  | l :: ls, a, bs, h => by
    unfold assemble at h
    cases hb : l.bytes env a with
    | none => rw [hb] at h; cases h
    | some b =>
      rw [hb] at h
      cases hc : assemble env (a + BitVec.ofNat 32 b.length) ls with
      | none =>
        have h : (do let cs ← assemble env (a + BitVec.ofNat 32 b.length) ls; some (b ++ cs)) = some bs := h
        rw [hc] at h; cases h
      | some c =>
        intro l' hl
        rcases List.mem_cons.1 hl with rfl | hl
        · cases l' with
          | ins name args =>
            show (defines.lookup name).isSome = true
            cases hd : defines.lookup name with
            | none => rw [show Line.bytes env a (.ins name args) = Option.map _ (defines.lookup name) from rfl, hd] at hb; cases hb
            | some _ => rfl
          | label x => rfl
          | comment => rfl
        · exact assemble_defined env ls _ c hc l' hl

/-- The text so far is defined. -/
def TextDef (i : Info) : Prop := AllDef i.text.flatten

theorem AllDef.append {a b : List Line} (ha : AllDef a) (hb : AllDef b) : AllDef (a ++ b) := fun l hl =>
  (List.mem_append.1 hl).elim (ha l) (hb l)

theorem TextDef.append {i : Info} (h : TextDef i) {t : List (List Line)} (ht : AllDef t.flatten) : TextDef (appendText i t) := by
  unfold TextDef appendText
  rw [List.flatten_append]
  exact AllDef.append h ht

theorem allDef_one {ls : List Line} (h : AllDef ls) : AllDef [ls].flatten := by simpa using h

theorem TextDef.append1 {i : Info} (h : TextDef i) {ls : List Line} (ht : ls.all Known = true) : TextDef (appendText i [ls]) :=
  h.append (allDef_one (List.all_eq_true.1 ht))

theorem label_def (l : String) : [Line.label l].all Known = true := rfl
theorem jump_def (l : String) : (jump l).all Known = true := by
  show [Line.ins "jmp32" [.offset l]].all Known = true
  show (Known (.ins "jmp32" []) && true) = true
  decide +kernel
theorem jumpZ_def (l : String) : (jumpZ l).all Known = true := by
  show (Known (.ins "je32" []) && true) = true
  decide +kernel
theorem jumpNz_def (l : String) : (jumpNz l).all Known = true := by
  show (Known (.ins "jne32" []) && true) = true
  decide +kernel

theorem ins_def {name : String} {args : List Arg} (h : (defines.lookup name).isSome = true) : [Line.ins name args].all Known = true := by
  show (Known (.ins name args) && true) = true
  rw [show Known (.ins name args) = true from h]; rfl

theorem regs_one {i : Info} {n : Nat} (h : Regs i (n + 1)) : getR i = "eax" ∨ getR i = "ebx" := by
  cases n with
  | zero => exact .inl (getR_one h)
  | succ n => exact .inr (getR_two h)

theorem valueToR_def {i : Info} {n : Nat} (h : Regs i (n + 1)) (v : Int) : (valueToR i v).all Known = true := by
  unfold valueToR
  rcases regs_one h with e | e <;> rw [e] <;> exact ins_def (by decide +kernel)
theorem labelToR_def {i : Info} {n : Nat} (h : Regs i (n + 1)) (v : String) : (labelToR i v).all Known = true := by
  unfold labelToR
  rcases regs_one h with e | e <;> rw [e] <;> exact ins_def (by decide +kernel)
theorem testR_def {i : Info} {n : Nat} (h : Regs i (n + 1)) : (testR i).all Known = true := by
  unfold testR
  rcases regs_one h with e | e <;> rw [e] <;> exact ins_def (by decide +kernel)
theorem rZero_def {i : Info} {n : Nat} (h : Regs i (n + 1)) : (rZero i).all Known = true := by
  unfold rZero
  rcases regs_one h with e | e <;> rw [e] <;> exact ins_def (by decide +kernel)
theorem notR_def {i : Info} {n : Nat} (h : Regs i (n + 1)) : (notR i).all Known = true := by
  unfold notR
  rcases regs_one h with e | e <;> rw [e] <;> exact ins_def (by decide +kernel)
theorem localToR_def {i : Info} {n : Nat} (h : Regs i (n + 1)) (id : Int) : (localToR i id).all Known = true := by
  unfold localToR
  rcases regs_one h with e | e <;> rw [e] <;> dsimp only <;> split <;> exact ins_def (by decide +kernel)
theorem rAddValue_def {i : Info} {n : Nat} (h : Regs i (n + 1)) (v : Int) : (rAddValue i v).all Known = true := by
  unfold rAddValue
  rcases regs_one h with e | e <;> rw [e] <;> split <;> exact ins_def (by decide +kernel)
theorem ccToR_def {i : Info} {n : Nat} (h : Regs i (n + 1)) {set : String} {c : CC} (hc : SetName set c) : (ccToR set i).all Known = true := by
  unfold ccToR
  rcases regs_one h with e | e <;> rw [e] <;> cases hc <;> decide +kernel
theorem zfToR_def {i : Info} {n : Nat} (h : Regs i (n + 1)) : (zfToR i).all Known = true := by rw [zfToR_eq]; exact ccToR_def h .e
theorem rNegate_def {i : Info} {n : Nat} (h : Regs i (n + 1)) : (rNegate i).all Known = true := by rw [rNegate_eq]; exact ccToR_def h .e
theorem convertR0_def {i : Info} {n : Nat} (h : Regs i (n + 1)) (t : Ty) : AllDef (convertR0 i t).flatten := by
  unfold convertR0 byteSignedR byteR wordSignedR wordR
  rcases regs_one h with e | e <;> rw [e] <;> (repeat' split) <;> first
    | (intro l hl; simp at hl; done)
    | exact allDef_one (List.all_eq_true.1 (by decide +kernel))
theorem xorZf_def : xorZf.all Known = true := by decide +kernel
theorem ret_def : Mescc.ret.all Known = true := by decide +kernel
theorem swap_def {i : Info} {n : Nat} (h : Regs i (n + 2)) : (swapR0R1 i).all Known = true := by
  unfold swapR0R1; rw [getR0_two h, getR1_two h]; decide +kernel

/-- The operations on two registers. -/
inductive IsOp : (Info → List Line) → Prop
  | add : IsOp r0AddR1
  | sub : IsOp r0SubR1
  | and : IsOp r0AndR1
  | or : IsOp r0OrR1
  | xor : IsOp r0XorR1
  | shl : IsOp r0ShlR1
  | shr : IsOp r0ShrR1
  | mul : IsOp r0MulR1
  | div (s : Bool) : IsOp (r0DivR1 · s)
  | mod (s : Bool) : IsOp (r0ModR1 · s)

theorem IsOp.defined {i : Info} {n : Nat} (h : Regs i (n + 2)) {op : Info → List Line} (ho : IsOp op) : (op i).all Known = true := by
  cases ho
  case add => unfold r0AddR1; rw [getR0_two h, getR1_two h]; decide +kernel
  case sub => unfold r0SubR1; rw [getR0_two h, getR1_two h]; decide +kernel
  case and => unfold r0AndR1; rw [getR0_two h, getR1_two h]; decide +kernel
  case or => unfold r0OrR1; rw [getR0_two h, getR1_two h]; decide +kernel
  case xor => unfold r0XorR1; rw [getR0_two h, getR1_two h]; decide +kernel
  case shl => unfold r0ShlR1; rw [getR0_two h, getR1_two h]; decide +kernel
  case shr => unfold r0ShrR1; rw [getR0_two h, getR1_two h]; decide +kernel
  case mul => unfold r0MulR1; rw [getR0_two h, getR1_two h, h.allocated2]; decide +kernel
  case div s => show (r0DivR1 i s).all Known = true; unfold r0DivR1; rw [getR0_two h, getR1_two h, h.allocated2]; cases s <;> decide +kernel
  case mod s => show (r0ModR1 i s).all Known = true; unfold r0ModR1; rw [getR0_two h, getR1_two h, h.allocated2]; cases s <;> decide +kernel

theorem TextDef.alloc {i : Info} {n : Nat} (hr : Regs i n) (h : TextDef i) : TextDef (allocateRegister i) := by
  have hr' := hr.alloc
  unfold allocateRegister at hr' ⊢
  split
  · exact h
  · rename_i hl
    rw [if_neg hl] at hr'
    match n, hr, hr' with
    | 0, hr, _ => exact absurd (by rw [hr.allocated]; decide) hl
    | 1, hr, _ => exact absurd (by rw [hr.allocated]; decide) hl
    | n + 2, hr, _ =>
      refine TextDef.append1 (i := { i with pushed := i.pushed + 1 }) h ?_
      unfold pushR0 r1ToR0
      rw [show getR0 { i with pushed := i.pushed + 1 } = getR0 i from rfl, show getR1 { i with pushed := i.pushed + 1 } = getR1 i from rfl,
        getR0_two hr, getR1_two hr]
      decide +kernel

theorem TextDef.free {i : Info} {n : Nat} (hr : Regs i (n + 1)) (h : TextDef i) : TextDef (freeRegister i) := by
  unfold freeRegister
  split
  · exact h
  · rename_i hl
    match n, hr with
    | 0, hr => exact absurd hr.pushed hl
    | n + 1, hr =>
      refine TextDef.append1 (i := { i with pushed := i.pushed - 1 }) h ?_
      unfold r0ToR1 popR0
      rw [show getR0 { i with pushed := i.pushed - 1 } = getR0 i from rfl, show getR1 { i with pushed := i.pushed - 1 } = getR1 i from rfl,
        getR0_two hr, getR1_two hr]
      decide +kernel

/-- From `n` values to `n'` values, and all mnemonics are defined. -/
def Def (i : Info) (n : Nat) (i' : Info) (n' : Nat) : Prop := Regs i n → TextDef i → Regs i' n' ∧ TextDef i'

theorem Def.trans {i j k : Info} {a b c : Nat} (h : Def i a j b) (h' : Def j b k c) : Def i a k c := fun r t => h' (h r t).1 (h r t).2

theorem Def.alloc (i : Info) (n : Nat) : Def i n (allocateRegister i) (n + 1) := fun r t => ⟨r.alloc, t.alloc r⟩
theorem Def.free (i : Info) (n : Nat) : Def i (n + 1) (freeRegister i) n := fun r t => ⟨r.release, t.free r⟩
theorem Def.append {i : Info} {n : Nat} {t : List (List Line)} (h : Regs i n → AllDef t.flatten) : Def i n (appendText i t) n := fun r d =>
  ⟨r.append _, d.append (h r)⟩
theorem Def.append1 {i : Info} {n : Nat} {ls : List Line} (h : Regs i n → ls.all Known = true) : Def i n (appendText i [ls]) n := fun r d =>
  ⟨r.append _, d.append1 (h r)⟩

structure CodeDef (c : Code) : Prop where
  reg : ∀ i n, Def i n (c.reg i) (n + 1)
  test : ∀ l i n, Def i n (c.test l i) n

theorem binopToR_def {a b : Code} (ha : CodeDef a) (hb : CodeDef b) {op : Info → List Line} (ho : IsOp op) (i : Info) (n : Nat) :
    Def i n (binopToR a b op i) (n + 1) :=
  (ha.reg i n).trans ((hb.reg _ _).trans ((Def.append1 fun r => ho.defined r).trans (Def.free _ _)))

theorem compareToR_def {a b : Code} (ha : CodeDef a) (hb : CodeDef b) {set : String} {c : CC} (hc : SetName set c) (i : Info) (n : Nat) :
    Def i n (compareToR a b set i) (n + 1) :=
  (binopToR_def ha hb .sub i n).trans ((Def.append1 fun r => ccToR_def r hc).trans (Def.append1 testR_def))

theorem jumpWith_def {reg : Info → Info} (h : ∀ i n, Def i n (reg i) (n + 1)) {type : String → List Line} (ht : ∀ l, (type l).all Known = true)
    {test : Option (Info → List Line)} (hz : test = none ∨ test = some rZero) (l : String) (i : Info) (n : Nat) :
    Def i n (jumpWith reg type test l i) n := by
  refine (h i n).trans ((Def.append1 fun _ => rfl).trans (Def.trans (Def.append fun r => ?_) (Def.free _ _)))
  rcases hz with rfl | rfl
  · exact allDef_one (List.all_eq_true.1 (ht l))
  · exact AllDef.append (List.all_eq_true.1 (rZero_def r)) (allDef_one (List.all_eq_true.1 (ht l)))

theorem binToRegister_def {a b : Code} (ha : CodeDef a) (hb : CodeDef b) (op : Binop) (fixed : Option Const) (i : Info) (n : Nat)
    (s u : Bool) : Def i n (binToRegister op a b fixed i s u) (n + 1) := by
  have hadd : ∀ (v : Int), Def i n (appendText (a.reg i) [rAddValue (a.reg i) v]) (n + 1) := fun v =>
    (ha.reg i n).trans (Def.append1 fun r => rAddValue_def r v)
  have hcmp : ∀ (s₁ s₂ : String) (c₁ c₂ : CC), SetName s₁ c₁ → SetName s₂ c₂ →
      Def i n (compareToR a b (if u then s₁ else s₂) i) (n + 1) := fun s₁ s₂ c₁ c₂ h₁ h₂ => by
    cases u
    · exact compareToR_def ha hb h₂ i n
    · exact compareToR_def ha hb h₁ i n
  have hop : ∀ {f}, IsOp f → Def i n (binopToR a b f i) (n + 1) := fun h => binopToR_def ha hb h i n
  cases op with
  | add => cases fixed with
    | none => exact hop .add
    | some c => exact hadd _
  | sub => cases fixed with
    | none => exact hop .sub
    | some c => exact hadd _
  | mul => exact hop .mul
  | div => exact hop (.div s)
  | mod => exact hop (.mod s)
  | and => exact hop .and
  | or => exact hop .or
  | xor => exact hop .xor
  | shl => exact hop .shl
  | shr => exact hop .shr
  | eq => exact (hop .sub).trans (Def.append1 zfToR_def)
  | ne => exact (hop .sub).trans ((Def.append1 testR_def).trans ((Def.append1 fun _ => xorZf_def).trans (Def.append1 zfToR_def)))
  | ge => exact hcmp _ _ _ _ .ae .ge
  | gt => exact hcmp _ _ _ _ .a .g
  | le => exact hcmp _ _ _ _ .be .le
  | lt => exact hcmp _ _ _ _ .b .l

theorem compile_def (e : Expr) : CodeDef (compile e) := by
  have leaf : ∀ (f : Info → List (List Line)) (_ : ∀ i n, Regs i (n + 1) → AllDef (f i).flatten) i n,
      Def i n (let i := allocateRegister i; appendText i (f i)) (n + 1) := fun f hf i n =>
    (Def.alloc i n).trans (Def.append fun r => hf _ _ r)
  have one : ∀ {ls : List Line}, ls.all Known = true → AllDef [ls].flatten := fun h => allDef_one (List.all_eq_true.1 h)
  have jz := fun {reg : Info → Info} (h : ∀ i n, Def i n (reg i) (n + 1)) l i n => jumpWith_def h jumpZ_def (test := some rZero) (.inr rfl) l i n
  have jn := fun {reg : Info → Info} (h : ∀ i n, Def i n (reg i) (n + 1)) l i n => jumpWith_def h jumpZ_def (test := none) (.inl rfl) l i n
  have jnz := fun {reg : Info → Info} (h : ∀ i n, Def i n (reg i) (n + 1)) l i n => jumpWith_def h jumpNz_def (test := none) (.inl rfl) l i n
  induction e with
  | fixed c =>
    have hreg : ∀ i n, Def i n ((compile (.fixed c)).reg i) (n + 1) := leaf (fun i => [valueToR i c.value]) fun i n r => one (valueToR_def r _)
    exact ⟨hreg, jz hreg⟩
  | chr c =>
    have hreg : ∀ i n, Def i n ((compile (.chr c)).reg i) (n + 1) := leaf (fun i => [valueToR i c]) fun i n r => one (valueToR_def r _)
    exact ⟨hreg, jz hreg⟩
  | ident x =>
    have hreg : ∀ i n, Def i n ((compile (.ident x)).reg i) (n + 1) := leaf (fun i => identToR i x) fun i n r => by
      unfold identToR
      split
      · rw [List.flatten_append]; exact AllDef.append (one (localToR_def r _)) (convertR0_def r _)
      · exact one (labelToR_def r _)
    exact ⟨hreg, jz hreg⟩
  | un op a ih =>
    cases op with
    | neg =>
      have hreg : ∀ i n, Def i n ((compile (.un .neg a)).reg i) (n + 1) := by
        intro i n
        unfold compile
        dsimp only
        cases isFixed a with
        | some c => exact leaf (fun i => [valueToR i (-c.value)]) (fun i n r => one (valueToR_def r _)) i n
        | none =>
          exact (ih.reg i n).trans ((Def.alloc _ _).trans ((Def.append fun r => by
            rw [List.flatten_append, List.flatten_append]
            exact AllDef.append (AllDef.append (one (valueToR_def r _)) (one (swap_def r))) (one (IsOp.sub.defined r))).trans (Def.free _ _)))
      exact ⟨hreg, jz hreg⟩
    | pos => exact ⟨ih.reg, jz ih.reg⟩
    | bitNot =>
      have hreg : ∀ i n, Def i n ((compile (.un .bitNot a)).reg i) (n + 1) := fun i n => (ih.reg i n).trans (Def.append1 notR_def)
      exact ⟨hreg, jz hreg⟩
    | not =>
      have hreg : ∀ i n, Def i n ((compile (.un .not a)).reg i) (n + 1) := fun i n =>
        (ih.reg i n).trans ((Def.append1 testR_def).trans ((Def.append1 rNegate_def).trans (Def.append1 testR_def)))
      exact ⟨hreg, jn hreg⟩
  | bin op a b iha ihb =>
    have hreg : ∀ i n, Def i n ((compile (.bin op a b)).reg i) (n + 1) := fun i n => binToRegister_def iha ihb op _ i n _ _
    refine ⟨hreg, fun l i n => ?_⟩
    cases op
    all_goals first
      | exact jz hreg l i n
      | exact jn hreg l i n
      | exact jnz hreg l i n
  | land a b iha ihb =>
    refine ⟨fun i n => ?_, fun l i n => ?_⟩
    · exact (iha.reg i n).trans ((Def.append1 testR_def).trans ((Def.append1 fun _ => jumpZ_def _).trans ((Def.append1 testR_def).trans ((Def.free _ _).trans
        ((ihb.reg _ _).trans ((Def.append1 testR_def).trans (Def.append1 fun _ => label_def _)))))))
    · exact (iha.test l i n).trans (ihb.test l _ _)
  | lor a b iha ihb =>
    refine ⟨fun i n => ?_, fun l i n => ?_⟩
    · exact (iha.reg i n).trans ((Def.append1 testR_def).trans ((Def.append1 fun _ => jumpNz_def _).trans ((Def.append1 testR_def).trans ((Def.free _ _).trans
        ((ihb.reg _ _).trans ((Def.append1 testR_def).trans (Def.append1 fun _ => label_def _)))))))
    · exact (iha.test _ i n).trans ((Def.append1 fun _ => jump_def _).trans ((Def.append1 fun _ => label_def _).trans ((ihb.test l _ _).trans
        (Def.append1 fun _ => label_def _))))
  | cond a b c iha ihb ihc =>
    have hreg : ∀ i n, Def i n ((compile (.cond a b c)).reg i) (n + 1) := fun i n =>
      (iha.test _ i n).trans ((ihb.reg _ _).trans ((Def.free _ _).trans ((Def.append1 fun _ => jump_def _).trans ((Def.append1 fun _ => label_def _).trans
        ((ihc.reg _ _).trans ((Def.free _ _).trans ((Def.append1 fun _ => label_def _).trans (Def.alloc _ _))))))))
    exact ⟨hreg, jz hreg⟩
  | cast t a ih =>
    have hreg : ∀ i n, Def i n ((compile (.cast t a)).reg i) (n + 1) := fun i n => (ih.reg i n).trans (Def.append fun r => convertR0_def r t)
    exact ⟨hreg, jz hreg⟩

/-! ## Statements -/

theorem rToLocal_def {i : Info} {n : Nat} (h : Regs i (n + 1)) (id : Int) : (rToLocal i id).all Known = true := by
  unfold rToLocal
  rcases regs_one h with e | e <;> rw [e] <;> dsimp only <;> split <;> exact ins_def (by decide +kernel)

theorem rToLocalN_def {i : Info} {n : Nat} (h : Regs i (n + 1)) (id k : Int) : (rToLocalN i id k).all Known = true := by
  unfold rToLocalN
  rcases regs_one h with e | e <;> rw [e] <;> dsimp only <;> split <;> exact ins_def (by decide +kernel)

theorem rToIdent_def {i : Info} {n : Nat} (h : Regs i (n + 1)) (x : String) : AllDef (rToIdent i x).flatten := by
  unfold rToIdent
  split
  · exact allDef_one (List.all_eq_true.1 (rToLocal_def h _))
  · intro l hl; simp at hl

theorem rToLocalNText_def {i : Info} (h : Regs i 1) (l : Local) (hl : (l.type.size ≠ 1 ∧ l.type.size ≠ 2) ∨ (1 ≤ l.id ∧ l.id ≤ 31)) :
    AllDef (rToLocalNText i l 0).flatten := by
  unfold rToLocalNText
  split
  · exact allDef_one (List.all_eq_true.1 (rToLocalN_def h _ _))
  · split
    · refine allDef_one (List.all_eq_true.1 ?_)
      unfold byteRToLocalN
      rw [getR_one h]
      dsimp only
      rw [if_pos (by omega)]
      exact ins_def (by decide +kernel)
    · split
      · refine allDef_one (List.all_eq_true.1 ?_)
        unfold wordRToLocalN
        rw [getR_one h]
        dsimp only
        rw [if_pos (by omega)]
        exact ins_def (by decide +kernel)
      · exact allDef_one (List.all_eq_true.1 (rToLocalN_def h _ _))

theorem Def.freeAll1 (i : Info) : Def i 1 (freeAll i) 0 := fun r t => by
  rw [freeAll_one r]; exact ⟨r.release, t.free r⟩

theorem Def.freeAll0 (i : Info) : Def i 0 (freeAll i) 0 := fun r t => by
  rw [freeAll_zero r]; exact ⟨r, t⟩

theorem expr_def (e : Expr) (i : Info) : Def i 0 (astToInfo (.expr e) i) 0 := by
  have h1 : Def i 0 (freeRegister (exprToRegister e i)) 0 := ((compile_def e).reg i 0).trans (.free _ _)
  have h2 : Def i 0 (freeAll (appendText (exprToRegister e i) [rZero (exprToRegister e i)])) 0 :=
    ((compile_def e).reg i 0).trans ((Def.append1 rZero_def).trans (.freeAll1 _))
  cases e <;> first | exact h1 | exact h2

theorem ast_def (s : Stmt) : ∀ i, (wide s = true ∨ newId i.locals + decls s ≤ 32) → Def i 0 (astToInfo s i) 0 := by
  have lab : ∀ {i : Info} {n : Nat} (l : String), Def i n (appendText i [[.label l]]) n := fun l => Def.append1 fun _ => label_def l
  have jmp : ∀ {i : Info} {n : Nat} (l : String), Def i n (appendText i [jump l]) n := fun l => Def.append1 fun _ => jump_def l
  have sub : ∀ {i j : Info} {s t : Stmt}, (wide s && wide t) = true ∨ newId i.locals + (decls s + decls t : Nat) ≤ 32 →
      newId j.locals ≤ newId i.locals + decls s → (wide s = true ∨ newId i.locals + decls s ≤ 32) ∧ (wide t = true ∨ newId j.locals + decls t ≤ 32) :=
    fun {i j s t} h hj => by
      rcases h with h | h
      · rw [Bool.and_eq_true] at h; exact ⟨.inl h.1, .inl h.2⟩
      · exact ⟨.inr (by omega), .inr (by omega)⟩
  induction s with
  | skip => exact fun i _ r t => ⟨r, t⟩
  | expr e => exact fun i _ => expr_def e i
  | assign x e =>
    exact fun i _ => ((compile_def e).reg i 0).trans ((Def.append fun r => rToIdent_def r x).trans ((Def.append1 rZero_def).trans (.freeAll1 _)))
  | decl t x e =>
    intro i h r d
    cases e with
    | none => exact ⟨⟨r.allocated, r.free, r.pushed⟩, d⟩
    | some e =>
      refine (((compile_def e).reg { i with locals := (x, ⟨t, newId i.locals⟩) :: i.locals } 0).trans ((Def.append fun r' =>
        rToLocalNText_def r' ⟨t, newId i.locals⟩ ?_).trans (.free _ _))) ⟨r.allocated, r.free, r.pushed⟩ d
      have := newId_pos i.locals
      rcases h with h | h
      · left
        have h : (t.size != 1 && t.size != 2) = true := h
        simpa using h
      · right
        have h : newId i.locals + ((1 : Nat) : Int) ≤ 32 := h
        show 1 ≤ newId i.locals ∧ newId i.locals ≤ 31
        omega
  | seq s t ihs iht =>
    intro i h
    have := sub (i := i) (j := astToInfo s i) h (ast_grows s i).ids
    exact (ihs i this.1).trans (iht _ this.2)
  | block s ih => exact fun i h r d => ⟨⟨((ih i h) r d).1.allocated, ((ih i h) r d).1.free, ((ih i h) r d).1.pushed⟩, ((ih i h) r d).2⟩
  | ifThen c s ih =>
    intro i h r d
    let label := "_" ++ i.function ++ "_" ++ numberString i.text.length ++ "_"
    have hl : (testJump (label ++ "break") c i).locals = i.locals := ((compile_grows c).test _ i 0).ext.locals
    have g := (((compile_def c).test (label ++ "break") i 0).trans ((ih _ (by rw [show ((compile c).test (label ++ "break") i).locals = _ from hl]; exact h)).trans
      ((jmp (label ++ "break")).trans (lab (label ++ "break"))))) r d
    exact ⟨⟨g.1.allocated, g.1.free, g.1.pushed⟩, g.2⟩
  | ifElse c s t ihs iht =>
    intro i h r d
    let label := "_" ++ i.function ++ "_" ++ numberString i.text.length ++ "_"
    have hl : (testJump (label ++ "else") c i).locals = i.locals := ((compile_grows c).test _ i 0).ext.locals
    have hs := (ast_grows s (testJump (label ++ "else") c i)).ids
    have := sub (i := testJump (label ++ "else") c i) (j := astToInfo s (testJump (label ++ "else") c i))
      (by rw [hl]; exact h) hs
    have g := (((compile_def c).test (label ++ "else") i 0).trans ((ihs _ this.1).trans
      ((jmp (label ++ "break")).trans ((lab (label ++ "else")).trans ((iht (appendText (appendText _ [jump (label ++ "break")]) [[.label (label ++ "else")]]) this.2).trans (lab (label ++ "break"))))))) r d
    exact ⟨⟨g.1.allocated, g.1.free, g.1.pushed⟩, g.2⟩
  | «while» c s ih =>
    intro i h r d
    let label := "_" ++ i.function ++ "_" ++ numberString i.text.length ++ "_"
    let i1 := { appendText i [jump (label ++ "continue")] with breaks := (label ++ "break") :: i.breaks }
    let i2 := { i1 with continues := (label ++ "continue") :: i.continues }
    let j := appendText i2 [[.label (label ++ "loop")]]
    have g := ((lab (i := i2) (n := 0) (label ++ "loop")).trans ((ih j h).trans ((lab (label ++ "continue")).trans
      (((compile_def c).test (label ++ "break") _ 0).trans ((jmp (label ++ "loop")).trans (lab (label ++ "break")))))))
      ⟨r.allocated, r.free, r.pushed⟩ (d.append1 (jump_def _))
    exact ⟨⟨g.1.allocated, g.1.free, g.1.pushed⟩, g.2⟩
  | doWhile s c ih =>
    intro i h r d
    let label := "_" ++ i.function ++ "_" ++ numberString i.text.length ++ "_"
    let i1 := { i with breaks := (label ++ "break") :: i.breaks }
    let i2 := { i1 with continues := (label ++ "continue") :: i.continues }
    let j := appendText i2 [[.label (label ++ "loop")]]
    have g := ((lab (i := i2) (n := 0) (label ++ "loop")).trans ((ih j h).trans ((lab (label ++ "continue")).trans
      (((compile_def c).test (label ++ "break") _ 0).trans ((jmp (label ++ "loop")).trans (lab (label ++ "break")))))))
      ⟨r.allocated, r.free, r.pushed⟩ d
    exact ⟨⟨g.1.allocated, g.1.free, g.1.pushed⟩, g.2⟩
  | brk => exact fun i _ => jmp _
  | cont => exact fun i _ => jmp _
  | ret e =>
    exact fun i _ => (Def.freeAll0 i).trans (((compile_def e).reg _ 0).trans ((Def.free _ _).trans (Def.append1 fun _ => ret_def)))

end Mes.X86
