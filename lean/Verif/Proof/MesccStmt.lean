import Verif.Proof.MesccMain

/-
Statements: what the compiler does to its state, and how variables are stored.
-/
namespace Mes.X86
open Mes.Mescc Mes.CLang

/-! ## The state of the compiler -/

/-- The numbers of the variables are different, the next one is new, and none is that of the saved frame or the return address. -/
structure Lay (L : List (String × Local)) : Prop where
  different : L.Pairwise (fun a b => a.2.id ≠ b.2.id)
  new : ∀ e ∈ L, e.2.id < newId L
  saved : ∀ e ∈ L, e.2.id ≠ 0 ∧ e.2.id ≠ -1

theorem newId_pos (L : List (String × Local)) : 1 ≤ newId L := by
  unfold newId
  split
  · omega
  · split <;> omega

theorem newId_cons (L : List (String × Local)) (x : String) (t : Ty) : newId ((x, ⟨t, newId L⟩) :: L) = newId L + 1 := by
  have := newId_pos L
  show (if 0 < newId L then newId L + 1 else 1) = _
  rw [if_pos (by omega)]

theorem Lay.decl {L : List (String × Local)} (h : Lay L) (x : String) (t : Ty) : Lay ((x, ⟨t, newId L⟩) :: L) := by
  have h0 := newId_pos L
  refine ⟨List.pairwise_cons.2 ⟨fun e he => ?_, h.different⟩, fun e he => ?_, fun e he => ?_⟩
  · have := h.new e he
    show newId L ≠ e.2.id
    omega
  · rw [newId_cons]
    rcases List.mem_cons.1 he with rfl | he
    · show newId L < _; omega
    · have := h.new e he; omega
  · rcases List.mem_cons.1 he with rfl | he
    · show newId L ≠ 0 ∧ newId L ≠ -1; omega
    · exact h.saved e he

/-- From the state before a statement to that after it. -/
structure SGrows (i i' : Info) (k : Nat) : Prop where
  text : i.text <+: i'.text
  function : i'.function = i.function
  breaks : i'.breaks = i.breaks
  continues : i'.continues = i.continues
  locals : i.locals <:+ i'.locals
  regs : Regs i 0 → Regs i' 0
  lay : Lay i.locals → Lay i'.locals
  ids : newId i'.locals ≤ newId i.locals + k

theorem SGrows.of {i i' : Info} {k : Nat} (h : Grows i 0 i' 0) : SGrows i i' k :=
  ⟨h.ext.text, h.ext.function, h.ext.breaks, h.ext.continues, by rw [h.ext.locals]; exact List.suffix_refl _, h.regs,
    fun l => by rw [h.ext.locals]; exact l, by rw [h.ext.locals]; omega⟩

theorem SGrows.trans {i j k : Info} {a b : Nat} (h : SGrows i j a) (h' : SGrows j k b) : SGrows i k (a + b) :=
  ⟨h.text.trans h'.text, h'.function.trans h.function, h'.breaks.trans h.breaks, h'.continues.trans h.continues, h.locals.trans h'.locals,
    fun r => h'.regs (h.regs r), fun l => h'.lay (h.lay l), by have := h.ids; have := h'.ids; omega⟩

/-- Back to the variables before. -/
theorem SGrows.restore {i i' : Info} {k k' : Nat} (h : SGrows i i' k) : SGrows i { i' with locals := i.locals } k' :=
  ⟨h.text, h.function, h.breaks, h.continues, List.suffix_refl _, fun r => ⟨(h.regs r).allocated, (h.regs r).free, (h.regs r).pushed⟩,
    fun l => l, by show newId i.locals ≤ _; omega⟩

theorem freeAll_one {i : Info} (h : Regs i 1) : freeAll i = freeRegister i := by
  unfold freeAll
  rw [h.allocated]
  rfl

theorem freeAll_zero {i : Info} (h : Regs i 0) : freeAll i = i := by
  unfold freeAll
  rw [h.allocated]
  rfl

theorem freeAll_ext (i : Info) : Ext i (freeAll i) := by
  unfold freeAll
  generalize i.allocated = l
  induction l generalizing i with
  | nil => exact .refl i
  | cons r l ih => exact (Ext.free i).trans (ih _)

theorem freeAll_grows (i : Info) : Grows i 1 (freeAll i) 0 := ⟨freeAll_ext i, fun h => by rw [freeAll_one h]; exact h.release⟩

theorem freeAll_grows0 (i : Info) : Grows i 0 (freeAll i) 0 := ⟨freeAll_ext i, fun h => by rw [freeAll_zero h]; exact h⟩

theorem expr_grows (e : Expr) (i : Info) : Grows i 0 (astToInfo (.expr e) i) 0 := by
  have h1 : Grows i 0 (freeRegister (exprToRegister e i)) 0 := ((compile_grows e).reg i 0).trans (.free _ _)
  have h2 : Grows i 0 (freeAll (appendText (exprToRegister e i) [rZero (exprToRegister e i)])) 0 :=
    ((compile_grows e).reg i 0).trans ((Grows.append _ _ _).trans (freeAll_grows _))
  cases e <;> first | exact h1 | exact h2

theorem ast_grows (s : Stmt) : ∀ i, SGrows i (astToInfo s i) (decls s) := by
  induction s with
  | skip => exact fun i => .of ⟨.refl i, id⟩
  | expr e => exact fun i => .of (expr_grows e i)
  | assign x e =>
    exact fun i => .of (((compile_grows e).reg i 0).trans ((Grows.append _ _ _).trans ((Grows.append _ _ _).trans (freeAll_grows _))))
  | decl t x e =>
    intro i
    have h0 : SGrows i { i with locals := (x, ⟨t, newId i.locals⟩) :: i.locals } 1 :=
      ⟨List.prefix_refl _, rfl, rfl, rfl, List.suffix_cons _ _, fun r => ⟨r.allocated, r.free, r.pushed⟩, fun l => l.decl x t, by
        show newId ((x, ⟨t, newId i.locals⟩) :: i.locals) ≤ _
        rw [newId_cons]; omega⟩
    cases e with
    | none => exact h0
    | some e => exact h0.trans (b := 0) (.of (((compile_grows e).reg _ 0).trans ((Grows.append _ _ _).trans (.free _ _))))
  | seq s t ihs iht => exact fun i => (ihs i).trans (iht _)
  | block s ih => exact fun i => (ih i).restore
  | ifThen c s ih =>
    intro i
    exact SGrows.restore (k := 0 + (decls s + 0)) ((SGrows.of (k := 0) ((compile_grows c).test _ i 0)).trans ((ih _).trans
      (.of (i' := appendText (appendText _ _) _) ((Grows.append _ 0 _).trans (.append _ _ _)))))
  | ifElse c s t ihs iht =>
    intro i
    exact SGrows.restore (k := 0 + (decls s + (0 + (decls t + 0)))) ((SGrows.of (k := 0) ((compile_grows c).test _ i 0)).trans ((ihs _).trans
      ((SGrows.of (i' := appendText (appendText _ _) _) (k := 0) ((Grows.append _ 0 _).trans (.append _ _ _))).trans ((iht _).trans
        (.of (i' := appendText _ _) (.append _ _ _))))))
  | «while» c s ih =>
    intro i
    let label := "_" ++ i.function ++ "_" ++ numberString i.text.length ++ "_"
    let i1 := { appendText i [jump (label ++ "continue")] with breaks := (label ++ "break") :: i.breaks }
    let i2 := { i1 with continues := (label ++ "continue") :: i.continues }
    let j := appendText i2 [[.label (label ++ "loop")]]
    have h := (ih j).trans (SGrows.of (k := 0) (Grows.append _ 0 [[.label (label ++ "continue")]]) |>.trans
      ((SGrows.of (k := 0) ((compile_grows c).test (label ++ "break") _ 0)).trans
        (SGrows.of (i' := appendText (appendText _ [jump (label ++ "loop")]) [[.label (label ++ "break")]]) (k := 0)
          ((Grows.append _ 0 _).trans (.append _ _ _)))))
    have hp : i.text <+: j.text := ⟨_, (List.append_assoc ..).symm⟩
    refine ⟨hp.trans h.text, h.function, ?_, ?_, List.suffix_refl _,
      fun r => ⟨(h.regs ⟨r.allocated, r.free, r.pushed⟩).allocated, (h.regs ⟨r.allocated, r.free, r.pushed⟩).free,
        (h.regs ⟨r.allocated, r.free, r.pushed⟩).pushed⟩, fun l => l, by show newId i.locals ≤ _; omega⟩
    · exact congrArg List.tail h.breaks
    · exact congrArg List.tail h.continues
  | doWhile s c ih =>
    intro i
    let label := "_" ++ i.function ++ "_" ++ numberString i.text.length ++ "_"
    let i1 := { i with breaks := (label ++ "break") :: i.breaks }
    let i2 := { i1 with continues := (label ++ "continue") :: i.continues }
    let j := appendText i2 [[.label (label ++ "loop")]]
    have h := (ih j).trans (SGrows.of (k := 0) (Grows.append _ 0 [[.label (label ++ "continue")]]) |>.trans
      ((SGrows.of (k := 0) ((compile_grows c).test (label ++ "break") _ 0)).trans
        (SGrows.of (i' := appendText (appendText _ [jump (label ++ "loop")]) [[.label (label ++ "break")]]) (k := 0)
          ((Grows.append _ 0 _).trans (.append _ _ _)))))
    have hp : i.text <+: j.text := ⟨_, rfl⟩
    refine ⟨hp.trans h.text, h.function, ?_, ?_, List.suffix_refl _,
      fun r => ⟨(h.regs ⟨r.allocated, r.free, r.pushed⟩).allocated, (h.regs ⟨r.allocated, r.free, r.pushed⟩).free,
        (h.regs ⟨r.allocated, r.free, r.pushed⟩).pushed⟩, fun l => l, by show newId i.locals ≤ _; omega⟩
    · exact congrArg List.tail h.breaks
    · exact congrArg List.tail h.continues
  | brk => exact fun i => .of (.append _ _ _)
  | cont => exact fun i => .of (.append _ _ _)
  | ret e =>
    exact fun i => .of ((freeAll_grows0 i).trans (((compile_grows e).reg _ 0).trans ((Grows.free _ _).trans (.append _ _ _))))

end Mes.X86
