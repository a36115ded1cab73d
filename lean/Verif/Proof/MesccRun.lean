import Verif.Proof.MesccStore

/-
The code of a statement does what the statement does.
-/
namespace Mes.X86
open Mes.Mescc Mes.CLang

/-! ## Stores -/

theorem leave_length {ρ ρ' : Store} (h : ρ.length ≤ ρ'.length) : (ρ.leave ρ').length = ρ.length := by
  unfold Store.leave
  rw [List.length_drop]
  omega

theorem leave_self {ρ ρ' : Store} (h : ρ'.length = ρ.length) : ρ.leave ρ' = ρ' := by
  unfold Store.leave
  rw [h, Nat.sub_self, List.drop_zero]

theorem leave_trans {ρ ρ1 ρ2 : Store} (h1 : ρ.length ≤ ρ1.length) (h2 : ρ1.length ≤ ρ2.length) : ρ.leave (ρ1.leave ρ2) = ρ.leave ρ2 := by
  unfold Store.leave
  rw [List.drop_drop, List.length_drop]
  congr 1
  omega

theorem set_length {x : String} {v : Int} : ∀ {ρ ρ' : Store}, ρ.set x v = some ρ' → ρ'.length = ρ.length
  | [], _, h => by simp [Store.set] at h
  | (y, t, o) :: ρ, ρ', h => by
    unfold Store.set at h
    split at h
    · cases h; rfl
    · obtain ⟨ρ1, h1, rfl⟩ := Option.map_eq_some_iff.1 h
      simp [set_length h1]

theorem run_length (n : Nat) : ∀ {s : Stmt} {ρ ρ' : Store} {o : Out}, run n s ρ = some (ρ', o) → ρ.length ≤ ρ'.length := by
  induction n with
  | zero => intro s ρ ρ' o h; cases h
  | succ n ih =>
    intro s ρ ρ' o h
    cases s with
    | skip => cases h; exact Nat.le_refl _
    | expr e =>
      obtain ⟨v, -, h⟩ := Option.bind_eq_some_iff.1 h
      cases h; exact Nat.le_refl _
    | assign x e =>
      obtain ⟨v, -, h⟩ := Option.bind_eq_some_iff.1 h
      obtain ⟨ρ1, h1, h⟩ := Option.bind_eq_some_iff.1 h
      cases h; rw [set_length h1]; exact Nat.le_refl _
    | decl t x e =>
      cases e with
      | none => cases h; exact Nat.le_succ _
      | some e =>
        obtain ⟨v, -, h⟩ := Option.bind_eq_some_iff.1 h
        cases h; exact Nat.le_succ _
    | seq s t =>
      obtain ⟨⟨ρ1, o1⟩, h1, h⟩ := Option.bind_eq_some_iff.1 h
      have l1 := ih h1
      cases o1 with
      | normal => exact Nat.le_trans l1 (ih h)
      | brk => cases h; exact l1
      | cont => cases h; exact l1
      | ret v => cases h; exact l1
    | block s =>
      obtain ⟨⟨ρ1, o1⟩, h1, h⟩ := Option.bind_eq_some_iff.1 h
      cases h; rw [leave_length (ih h1)]; exact Nat.le_refl _
    | ifThen c s =>
      obtain ⟨v, -, h⟩ := Option.bind_eq_some_iff.1 h
      split at h
      · obtain ⟨⟨ρ1, o1⟩, h1, h⟩ := Option.bind_eq_some_iff.1 h
        cases h; rw [leave_length (ih h1)]; exact Nat.le_refl _
      · cases h; exact Nat.le_refl _
    | ifElse c s t =>
      obtain ⟨v, -, h⟩ := Option.bind_eq_some_iff.1 h
      obtain ⟨⟨ρ1, o1⟩, h1, h⟩ := Option.bind_eq_some_iff.1 h
      cases h; rw [leave_length (ih h1)]; exact Nat.le_refl _
    | «while» c s =>
      obtain ⟨v, -, h⟩ := Option.bind_eq_some_iff.1 h
      split at h
      · cases h; exact Nat.le_refl _
      · obtain ⟨⟨ρ1, o1⟩, h1, h⟩ := Option.bind_eq_some_iff.1 h
        have l1 := leave_length (ih h1)
        cases o1 with
        | normal => exact Nat.le_trans (Nat.le_of_eq l1.symm) (ih h)
        | cont => exact Nat.le_trans (Nat.le_of_eq l1.symm) (ih h)
        | brk => cases h; exact Nat.le_of_eq l1.symm
        | ret v => cases h; exact Nat.le_of_eq l1.symm
    | doWhile s c =>
      obtain ⟨⟨ρ1, o1⟩, h1, h⟩ := Option.bind_eq_some_iff.1 h
      have l1 := leave_length (ih h1)
      have key : (do let v ← eval (ρ.leave ρ1) c; if v = 0 then some (ρ.leave ρ1, Out.normal) else run n (.doWhile s c) (ρ.leave ρ1)) =
          some (ρ', o) → ρ.length ≤ ρ'.length := fun h => by
        obtain ⟨v, -, h⟩ := Option.bind_eq_some_iff.1 h
        split at h
        · cases h; exact Nat.le_of_eq l1.symm
        · exact Nat.le_trans (Nat.le_of_eq l1.symm) (ih h)
      cases o1 with
      | normal => exact key h
      | cont => exact key h
      | brk => cases h; exact Nat.le_of_eq l1.symm
      | ret v => cases h; exact Nat.le_of_eq l1.symm
    | brk => cases h; exact Nat.le_refl _
    | cont => cases h; exact Nat.le_refl _
    | ret e =>
      obtain ⟨v, -, h⟩ := Option.bind_eq_some_iff.1 h
      cases h; exact Nat.le_refl _

/-! ## Variables -/

section
variable {X : Frame} {V : Nat → Word}

theorem vars_length : ∀ {L : List (String × Local)} {ρ : Store}, Vars X V L ρ → L.length = ρ.length
  | [], [], _ => rfl
  | [], _ :: _, h => h.elim
  | _ :: _, [], h => h.elim
  | _ :: _, _ :: _, h => congrArg (· + 1) (vars_length h.2)

theorem vars_drop (k : Nat) : ∀ {L : List (String × Local)} {ρ : Store}, Vars X V L ρ → Vars X V (L.drop k) (ρ.drop k) := by
  induction k with
  | zero => exact fun h => h
  | succ k ih =>
    intro L ρ h
    match L, ρ, h with
    | [], [], _ => exact trivial
    | _ :: _, _ :: _, h => exact ih h.2

theorem vars_leave {L L' : List (String × Local)} {ρ ρ' : Store} (h : Vars X V L' ρ') (hs : L <:+ L') (hl : L.length = ρ.length) :
    Vars X V L (ρ.leave ρ') := by
  have hlen := vars_length h
  have := vars_drop (ρ'.length - ρ.length) h
  unfold Store.leave
  rw [show L'.drop (ρ'.length - ρ.length) = L by
    rw [← hlen, ← hl]
    exact (List.suffix_iff_eq_drop.1 hs).symm] at this
  exact this

theorem slot_inj {a b : Int} (ha : 0 ≤ ((X.room + X.locals : Nat) : Int) - a) (hb : 0 ≤ ((X.room + X.locals : Nat) : Int) - b)
    (h : slot X a = slot X b) : a = b := by
  unfold slot at h
  omega

theorem vars_other {id : Int} {w : Word} (h0 : 0 ≤ ((X.room + X.locals : Nat) : Int) - id) :
    ∀ {L : List (String × Local)} {ρ : Store}, Vars X V L ρ → (∀ e ∈ L, e.2.id ≠ id) → Vars X (setV V (slot X id) w) L ρ
  | [], [], _, _ => trivial
  | [], _ :: _, h, _ => h.elim
  | _ :: _, [], h, _ => h.elim
  | (y, l) :: L, (z, u, o) :: ρ, h, hn => by
    obtain ⟨⟨h1, h2, h3, h4, h5, h6, h7⟩, hs⟩ := h
    refine ⟨⟨h1, h2, h3, h4, h5, h6, fun v hv => ?_⟩, vars_other h0 hs fun e he => hn e (List.mem_cons_of_mem _ he)⟩
    have : setV V (slot X id) w (slot X l.id) = V (slot X l.id) := by
      unfold setV
      rw [if_neg]
      intro e
      exact hn _ List.mem_cons_self (slot_inj h4 h0 e)
    rw [this]
    exact h7 v hv

theorem vars_set {x : String} {v : Int} : ∀ {L : List (String × Local)} {ρ ρ' : Store}, Vars X V L ρ →
    L.Pairwise (fun a b => a.2.id ≠ b.2.id) → ρ.set x v = some ρ' →
    ∃ l, L.lookup x = some l ∧ (x, l) ∈ L ∧ 0 ≤ ((X.room + X.locals : Nat) : Int) - l.id ∧ X.room ≤ slot X l.id ∧ slot X l.id < X.words ∧
      Vars X (setV V (slot X l.id) (BitVec.ofInt 32 v)) L ρ'
  | [], [], _, _, _, h => by simp [Store.set] at h
  | [], _ :: _, _, h, _, _ => h.elim
  | _ :: _, [], _, h, _, _ => h.elim
  | (y, l) :: L, (z, u, o) :: ρ, ρ', h, hd, hset => by
    obtain ⟨⟨rfl, rfl, h3, h4, h5, h6, h7⟩, hs⟩ := h
    obtain ⟨hd1, hd2⟩ := List.pairwise_cons.1 hd
    unfold Store.set at hset
    by_cases hx : y = x
    · rw [if_pos hx] at hset
      cases hset
      subst hx
      refine ⟨l, by simp, List.mem_cons_self, h4, h5, h6, ⟨rfl, rfl, h3, h4, h5, h6, fun v' hv' => ?_⟩,
        vars_other h4 hs fun e he => (hd1 e he).symm⟩
      cases hv'
      refine ⟨?_, wrap_bounded h3 v⟩
      unfold setV
      rw [if_pos rfl, conv_ofInt h3]
    · rw [if_neg hx] at hset
      obtain ⟨ρ1, hset1, rfl⟩ := Option.map_eq_some_iff.1 hset
      obtain ⟨l', g1, g2, g3, g4, g5, g6⟩ := vars_set hs hd2 hset1
      refine ⟨l', ?_, List.mem_cons_of_mem _ g2, g3, g4, g5, ⟨rfl, rfl, h3, h4, h5, h6, fun v' hv' => ?_⟩, g6⟩
      · rw [List.lookup_cons]
        have : (x == y) = false := by simp; exact fun h => hx h.symm
        rw [this]; exact g1
      · have : setV V (slot X l'.id) (BitVec.ofInt 32 v) (slot X l.id) = V (slot X l.id) := by
          unfold setV
          rw [if_neg]
          intro e
          exact hd1 _ g2 (slot_inj h4 g3 e)
        rw [this]
        exact h7 v' hv'

theorem saved_set {id : Int} {w : Word} (h : Saved X V) (h0 : 0 ≤ ((X.room + X.locals : Nat) : Int) - id) (h1 : id ≠ 0 ∧ id ≠ -1) :
    Saved X (setV V (slot X id) w) := by
  refine ⟨?_, ?_⟩
  · unfold setV slot
    rw [if_neg (by omega)]
    exact h.bp
  · unfold setV slot
    rw [if_neg (by omega)]
    exact h.ret

end

/-! ## The end of a statement -/

section
variable {X : Frame} {V : Nat → Word} {T : List (List Line)} {base : Word} {i j i' : Info} {m : Mach} {ρ ρ' : Store}

theorem Reach.none {Q : Flags → Prop} {d : List Word} (h : Reach X V base m i d Q) : Reach X V base m i d (fun _ => True) := h.weak fun _ _ => trivial

/-- How the code of a statement ends; `i` and `i'` are the states of the compiler before and after. -/
def After (X : Frame) (base : Word) (m : Mach) (i i' : Info) (ρ ρ' : Store) : Out → Prop
  | .normal => ∃ V, Saved X V ∧ Vars X V i'.locals ρ' ∧ Reach X V base m i' [] (fun _ => True)
  | .brk => ∃ V, Saved X V ∧ Vars X V i.locals (ρ.leave ρ') ∧ Jumps X V m (i.breaks.headD "") []
  | .cont => ∃ V, Saved X V ∧ Vars X V i.locals (ρ.leave ρ') ∧ Jumps X V m (i.continues.headD "") []
  | .ret v => Returned X m (BitVec.ofInt 32 v)

/-- What is known at the start of a statement. -/
structure Env (X : Frame) (V : Nat → Word) (i : Info) (ρ : Store) : Prop where
  regs : Regs i 0
  vars : Vars X V i.locals ρ
  lay : Lay i.locals
  saved : Saved X V

theorem single_locals {s : Stmt} (h : s.single = true) (i : Info) : (astToInfo s i).locals = i.locals := by
  cases s with
  | decl => cases h
  | seq => cases h
  | skip => rfl
  | expr e => exact (expr_grows e i).ext.locals
  | assign x e => exact (((compile_grows e).reg i 0).trans ((Grows.append _ _ _).trans ((Grows.append _ _ _).trans (freeAll_grows _)))).ext.locals
  | block => rfl
  | ifThen => rfl
  | ifElse => rfl
  | «while» => rfl
  | doWhile => rfl
  | brk => rfl
  | cont => rfl
  | ret e => exact ((freeAll_grows0 i).trans (((compile_grows e).reg _ 0).trans ((Grows.free _ _).trans (.append _ _ [Mescc.ret])))).ext.locals

theorem Jumps.at (hT : CodeAt X base T.flatten) {l : String} {d : List Word} (h : Jumps X V m l d)
    (hp : (appendText i [[.label l]]).text <+: T) : Reach X V base m i d (fun _ => True) := by
  obtain ⟨m', h1, h2, h3⟩ := h
  exact ⟨m', h1, by rw [h2, label_pos hT hp], h3, trivial⟩

/-! ## Loops -/

def lab (i : Info) : String := "_" ++ i.function ++ "_" ++ numberString i.text.length ++ "_"

/-- The state inside a loop, with its labels. -/
def inLoop (l : String) (i : Info) : Info :=
  { { i with breaks := (l ++ "break") :: i.breaks } with continues := (l ++ "continue") :: i.continues }

/-- The code of a loop from its label on. -/
def lBody (l : String) (i : Info) : Info := appendText (inLoop l i) [[.label (l ++ "loop")]]
def lTest (l : String) (s : Stmt) (i : Info) : Info := appendText (astToInfo s (lBody l i)) [[.label (l ++ "continue")]]
def lJump (l : String) (c : Expr) (s : Stmt) (i : Info) : Info := (compile c).test (l ++ "break") (lTest l s i)
def lBack (l : String) (c : Expr) (s : Stmt) (i : Info) : Info := appendText (lJump l c s i) [jump (l ++ "loop")]
def lEnd (l : String) (c : Expr) (s : Stmt) (i : Info) : Info := appendText (lBack l c s i) [[.label (l ++ "break")]]

theorem while_text (c : Expr) (s : Stmt) (i : Info) :
    (astToInfo (.while c s) i).text = (lEnd (lab i) c s (appendText i [jump (lab i ++ "continue")])).text ∧
    (astToInfo (.while c s) i).locals = i.locals := ⟨rfl, rfl⟩

theorem do_text (c : Expr) (s : Stmt) (i : Info) :
    (astToInfo (.doWhile s c) i).text = (lEnd (lab i) c s i).text ∧ (astToInfo (.doWhile s c) i).locals = i.locals := ⟨rfl, rfl⟩

theorem inLoop_env {l : String} (h : Env X V i ρ) : Env X V (lBody l i) ρ :=
  ⟨⟨h.regs.allocated, h.regs.free, h.regs.pushed⟩, h.vars, h.lay, h.saved⟩

theorem Env.append (h : Env X V i ρ) (t : List (List Line)) : Env X V (appendText i t) ρ := ⟨h.regs.append t, h.vars, h.lay, h.saved⟩

/-- What is shown of all statements with `n` steps. -/
def Good (X : Frame) (T : List (List Line)) (base : Word) (n : Nat) : Prop :=
  ∀ (s : Stmt) (ρ ρ' : Store) (o : Out) (i : Info) (m : Mach) (V : Nat → Word) (Q : Flags → Prop), run n s ρ = some (ρ', o) → FitsRun n s ρ →
    s.Formed → (astToInfo s i).text <+: T → Env X V i ρ → depthS s ≤ X.room + 2 → newId i.locals + decls s ≤ X.locals + 1 →
    Reach X V base m i [] Q → After X base m i (astToInfo s i) ρ ρ' o

/-- The body of a loop, from the label on: it ends at the label of the condition, at the end of the loop, or returns. -/
theorem body_ok (hT : CodeAt X base T.flatten) {n : Nat} (ih : Good X T base n) {c : Expr} {s : Stmt} {ρ ρ1 : Store} {o : Out} {l : String}
    (hr : run n s ρ = some (ρ1, o)) (hf : FitsRun n s ρ) (hs : s.single) (hw : s.Formed) (hp : (lEnd l c s i).text <+: T) (he : Env X V i ρ)
    (hd : depthS s ≤ X.room + 2) (hi : newId i.locals + decls s ≤ X.locals + 1) (h : Reach X V base m (lBody l i) [] (fun _ => True)) :
    match o with
    | .normal | .cont => ∃ V', Env X V' (lTest l s i) (ρ.leave ρ1) ∧ (lTest l s i).locals = i.locals ∧
        Reach X V' base m (lTest l s i) [] (fun _ => True)
    | .brk => ∃ V', Saved X V' ∧ Vars X V' i.locals (ρ.leave ρ1) ∧ Reach X V' base m (lEnd l c s i) [] (fun _ => True)
    | .ret v => Returned X m (BitVec.ofInt 32 v) := by
  have e1 := (prefix_append _).trans hp
  have e2 : (lJump l c s i).text <+: T := (prefix_append _).trans e1
  have e3 : (lTest l s i).text <+: T := ((compile_grows c).test _ _ 0).ext.text.trans e2
  have e4 := (prefix_append _).trans e3
  have hg := ast_grows s (lBody l i)
  have hl : (lTest l s i).locals = i.locals := (single_locals hs (lBody l i))
  have hreg : Regs (lTest l s i) 0 := (hg.regs (inLoop_env he).regs).append _
  have ha := ih s ρ ρ1 o (lBody l i) m V _ hr hf hw e4 (inLoop_env he) hd hi h
  cases o with
  | normal =>
    obtain ⟨V', g1, g2, g3⟩ := ha
    have g2' : Vars X V' i.locals (ρ.leave ρ1) := vars_leave g2 hg.locals (vars_length he.vars)
    exact ⟨V', ⟨hreg, by rw [hl]; exact g2', by rw [hl]; exact he.lay, g1⟩, hl, g3.label⟩
  | cont =>
    obtain ⟨V', g1, g2, g3⟩ := ha
    exact ⟨V', ⟨hreg, by rw [hl]; exact g2, by rw [hl]; exact he.lay, g1⟩, hl, Jumps.label hT g3 e3⟩
  | brk =>
    obtain ⟨V', g1, g2, g3⟩ := ha
    exact ⟨V', g1, g2, Jumps.label hT g3 hp⟩
  | ret v => exact ha

/-- The condition of a loop: the loop ends, or it goes on at its label. -/
theorem test_ok (hX : X.Ok) (hT : CodeAt X base T.flatten) {c : Expr} {s : Stmt} {v : Int} {l : String} {Q : Flags → Prop}
    (hv : eval ρ c = some v) (hf : Fits ρ true 0 c) (hp : (lEnd l c s i).text <+: T) (he : Env X V (lTest l s i) ρ)
    (hd : depth c ≤ X.room + 2) (h : Reach X V base m (lTest l s i) [] Q) :
    (v = 0 → Reach X V base m (lEnd l c s i) [] (fun _ => True)) ∧ (v ≠ 0 → Reach X V base m i [] (fun _ => True)) := by
  have e1 := (prefix_append _).trans hp
  have e2 : (lJump l c s i).text <+: T := (prefix_append _).trans e1
  have e3 : (lTest l s i).text <+: T := ((compile_grows c).test _ _ 0).ext.text.trans e2
  have e4 := (prefix_append _).trans e3
  have e5 : (lBody l i).text <+: T := (ast_grows s (lBody l i)).text.trans e4
  have ht := (compile_ok hX hT he.vars c).2 0 v (l ++ "break") (by omega) hf hv (lTest l s i) [] m Q rfl he.regs rfl (by omega) e2 h
  refine ⟨fun h0 => (ht.2 h0).label hT hp, fun h0 => ?_⟩
  exact (((ht.1 h0).jmp hT e1).at hT e5).text rfl

theorem run_ok (hX : X.Ok) (hT : CodeAt X base T.flatten) (n : Nat) : Good X T base n ∧
    ∀ (c : Expr) (s : Stmt) (ρ ρ' : Store) (o : Out) (i : Info) (m : Mach) (V : Nat → Word) (Q : Flags → Prop) (l : String),
      run n (.while c s) ρ = some (ρ', o) → FitsRun n (.while c s) ρ → s.single → s.Formed → (lEnd l c s i).text <+: T →
      Env X V (lTest l s i) ρ → Env X V i ρ → depthS (.while c s) ≤ X.room + 2 → newId i.locals + decls s ≤ X.locals + 1 →
      Reach X V base m (lTest l s i) [] Q →
      After X base m i { lEnd l c s i with locals := i.locals } ρ ρ' o := by
  induction n with
  | zero => exact ⟨(fun s ρ ρ' o i m V Q h => by cases h), (fun c s ρ ρ' o i m V Q l h => by cases h)⟩
  | succ n ih =>
    obtain ⟨ih, ihw⟩ := ih
    have hW : ∀ (c : Expr) (s : Stmt) (ρ ρ' : Store) (o : Out) (i : Info) (m : Mach) (V : Nat → Word) (Q : Flags → Prop) (l : String),
      run (n + 1) (.while c s) ρ = some (ρ', o) → FitsRun (n + 1) (.while c s) ρ → s.single → s.Formed → (lEnd l c s i).text <+: T →
      Env X V (lTest l s i) ρ → Env X V i ρ → depthS (.while c s) ≤ X.room + 2 → newId i.locals + decls s ≤ X.locals + 1 →
      Reach X V base m (lTest l s i) [] Q →
      After X base m i { lEnd l c s i with locals := i.locals } ρ ρ' o := by
      intro c s ρ ρ' o i m V Q l hr hf hs hw hp he he0 hd hi h
      simp only [depthS] at hd
      obtain ⟨v, hv, hr⟩ := Option.bind_eq_some_iff.1 hr
      obtain ⟨fc, fs⟩ := hf
      have ht := test_ok hX hT hv fc hp he (by omega) h
      by_cases h0 : v = 0
      · rw [if_pos h0] at hr
        cases hr
        exact ⟨V, he.saved, he0.vars, (ht.1 h0).text rfl⟩
      · rw [if_neg h0] at hr
        obtain ⟨⟨ρ1, o1⟩, hr1, hr⟩ := Option.bind_eq_some_iff.1 hr
        obtain ⟨fs, fw⟩ := fs v hv h0
        have hb := body_ok hT ih (c := c) (l := l) hr1 fs hs hw hp he0 (by omega) hi ((ht.2 h0).label (l := l ++ "loop") |>.text rfl)
        have again : (o1 = .normal ∨ o1 = .cont) → run n (.while c s) (ρ.leave ρ1) = some (ρ', o) →
            (∃ V', Env X V' (lTest l s i) (ρ.leave ρ1) ∧ (lTest l s i).locals = i.locals ∧
              Reach X V' base m (lTest l s i) [] (fun _ => True)) → After X base m i { lEnd l c s i with locals := i.locals } ρ ρ' o := by
          intro ho hr ⟨V', g1, g2, g3⟩
          have hlen := leave_length (run_length n hr1)
          have := ihw c s (ρ.leave ρ1) ρ' o i m V' _ l hr (fw ρ1 o1 hr1 ho) hs hw hp g1
            ⟨he0.regs, by rw [← g2]; exact g1.vars, he0.lay, g1.saved⟩ (by simp only [depthS]; omega) hi g3
          cases o with
          | normal => exact this
          | ret v => exact this
          | brk =>
            obtain ⟨V2, k1, k2, k3⟩ := this
            refine ⟨V2, k1, ?_, k3⟩
            rwa [show Store.leave ρ ρ' = Store.leave (ρ.leave ρ1) ρ' by unfold Store.leave at *; rw [hlen]]
          | cont =>
            obtain ⟨V2, k1, k2, k3⟩ := this
            refine ⟨V2, k1, ?_, k3⟩
            rwa [show Store.leave ρ ρ' = Store.leave (ρ.leave ρ1) ρ' by unfold Store.leave at *; rw [hlen]]
        cases o1 with
        | normal => exact again (.inl rfl) hr hb
        | cont => exact again (.inr rfl) hr hb
        | brk =>
          cases hr
          obtain ⟨V', g1, g2, g3⟩ := hb
          exact ⟨V', g1, g2, g3.text rfl⟩
        | ret v =>
          cases hr
          exact hb
    refine ⟨?_, hW⟩
    intro s ρ ρ' o i m V Q hr hf hw hp he hd hi h
    cases s with
    | skip => cases hr; exact ⟨V, he.saved, he.vars, h.none⟩
    | expr e =>
      obtain ⟨v, hv, hr⟩ := Option.bind_eq_some_iff.1 hr
      cases hr
      have hce := (compile_ok hX hT he.vars e).1 0 v hf hv
      have r1 := ((compile_grows e).reg i 0).regs he.regs
      have hl := (expr_grows e i).ext.locals
      have fin : ∀ j : Info, (astToInfo (.expr e) i) = j → Reach X V base m j [] (fun _ => True) →
          After X base m i (astToInfo (.expr e) i) ρ ρ .normal := fun j hj hr => ⟨V, he.saved, by rw [hl]; exact he.vars, by rw [hj]; exact hr⟩
      have k1 : (freeRegister (exprToRegister e i)).text <+: T → Reach X V base m (freeRegister (exprToRegister e i)) [] (fun _ => True) := fun hp =>
        ((hce i [] m Q rfl he.regs rfl (by simp only [depthS] at hd; omega) (free_text.trans hp) h).free hT r1 hp).none
      have k2 : (freeAll (appendText (exprToRegister e i) [rZero (exprToRegister e i)])).text <+: T →
          Reach X V base m (freeAll (appendText (exprToRegister e i) [rZero (exprToRegister e i)])) [] (fun _ => True) := fun hp => by
        have r2 : Regs (appendText (exprToRegister e i) [rZero (exprToRegister e i)]) 1 := r1.append _
        rw [freeAll_one r2] at hp ⊢
        have e1 := free_text.trans hp
        have s1 := hce i [] m Q rfl he.regs rfl (by simp only [depthS] at hd; omega) ((prefix_append _).trans e1) h
        exact ((s1.run hT (rZero_run (d := []) r1) e1 (R := fun _ => True) (fun _ _ _ _ => trivial)).free hT r2 hp).none
      cases e <;> first | exact fin _ rfl (k1 hp) | exact fin _ rfl (k2 hp)
    | assign x e =>
      obtain ⟨v, hv, hr⟩ := Option.bind_eq_some_iff.1 hr
      obtain ⟨ρ1, hset, hr⟩ := Option.bind_eq_some_iff.1 hr
      cases hr
      obtain ⟨l, g1, g2, g3, g4, g5, g6⟩ := vars_set he.vars he.lay.different hset
      have hce := (compile_ok hX hT he.vars e).1 0 v hf hv
      have r1 := ((compile_grows e).reg i 0).regs he.regs
      have hl : (exprToRegister e i).locals = i.locals := ((compile_grows e).reg i 0).ext.locals
      have e0 : rToIdent (exprToRegister e i) x = [rToLocal (exprToRegister e i) l.id] := by
        unfold rToIdent; rw [hl, g1]
      have e1 : astToInfo (.assign x e) i = freeAll (appendText (appendText (exprToRegister e i) [rToLocal (exprToRegister e i) l.id])
          [rZero (appendText (exprToRegister e i) [rToLocal (exprToRegister e i) l.id])]) := by rw [← e0]; rfl
      have r2 : Regs (appendText (exprToRegister e i) [rToLocal (exprToRegister e i) l.id]) 1 := r1.append _
      have r3 := r2.append [rZero (appendText (exprToRegister e i) [rToLocal (exprToRegister e i) l.id])]
      have hll : (astToInfo (.assign x e) i).locals = i.locals := single_locals rfl i
      rw [freeAll_one r3] at e1
      rw [e1] at hp
      have p1 := free_text.trans hp
      have p2 := (prefix_append _).trans p1
      have s1 := hce i [] m Q rfl he.regs rfl (by simp only [depthS] at hd; omega) ((prefix_append _).trans p2) h
      have s2 := s1.store hX hT r1 g3 g4 g5 p2
      have s3 := s2.run hT (rZero_run (d := []) r2) p1 (R := fun _ => True) (fun _ _ _ _ => trivial)
      exact ⟨_, saved_set he.saved g3 (he.lay.saved _ g2), by rw [hll]; exact g6, by rw [e1]; exact (s3.free hT r3 hp).none⟩
    | decl t x e =>
      have hid := newId_pos i.locals
      simp only [decls] at hi
      have q1 : 0 ≤ ((X.room + X.locals : Nat) : Int) - newId i.locals := by omega
      have q2 : X.room ≤ slot X (newId i.locals) := by unfold slot; omega
      have q3 : slot X (newId i.locals) < X.words := by unfold slot Frame.words; omega
      have ht : t.Ok := by cases e with
        | none => exact hf
        | some e => exact hf.1
      have hv0 : Vars X V ((x, ⟨t, newId i.locals⟩) :: i.locals) ((x, t, none) :: ρ) :=
        ⟨⟨rfl, rfl, ht, q1, q2, q3, fun v hv => by cases hv⟩, he.vars⟩
      cases e with
      | none =>
        cases hr
        exact ⟨V, he.saved, hv0, h.none.text rfl⟩
      | some e =>
        obtain ⟨v, hv, hr⟩ := Option.bind_eq_some_iff.1 hr
        cases hr
        generalize hj : ({ i with locals := (x, ⟨t, newId i.locals⟩) :: i.locals } : Info) = j
        have jl : j.locals = (x, ⟨t, newId i.locals⟩) :: i.locals := by rw [← hj]
        have jt : j.text = i.text := by rw [← hj]
        have jr : Regs j 0 := by rw [← hj]; exact ⟨he.regs.allocated, he.regs.free, he.regs.pushed⟩
        have e1 : astToInfo (.decl t x (some e)) i =
            freeRegister (appendText (exprToRegister e j) (rToLocalNText (exprToRegister e j) ⟨t, newId i.locals⟩ 0)) := by rw [← hj]; rfl
        have r1 := ((compile_grows e).reg j 0).regs jr
        have hll : (astToInfo (.decl t x (some e)) i).locals = (x, ⟨t, newId i.locals⟩) :: i.locals := by
          rw [e1, (Ext.free _).locals, ← jl]; exact ((compile_grows e).reg j 0).ext.locals
        rw [e1] at hp
        have p1 := free_text.trans hp
        have s1 := (compile_ok hX hT hv0 e).1 0 v hf.2 hv j [] m Q rfl jr jl (by simp only [depthS] at hd; omega) ((prefix_append _).trans p1) (h.text jt)
        obtain ⟨u, hu, s2⟩ := s1.init hX hT r1 (l := ⟨t, newId i.locals⟩) ht q1 q2 q3 p1
        refine ⟨_, saved_set he.saved q1 (by omega), ?_, by rw [e1]; exact (s2.free hT (r1.append _) hp).none⟩
        rw [hll]
        refine ⟨⟨rfl, rfl, ht, q1, q2, q3, fun v' hv' => ?_⟩, vars_other q1 he.vars fun e he' => ?_⟩
        · cases hv'
          refine ⟨?_, wrap_bounded ht v⟩
          show conv t (setV V _ u _) = _
          unfold setV
          rw [if_pos rfl, ← conv_ofInt ht]
          exact hu
        · have := he.lay.new e he'; omega
    | seq s t =>
      obtain ⟨⟨ρ1, o1⟩, hr1, hr⟩ := Option.bind_eq_some_iff.1 hr
      obtain ⟨fs, ft⟩ := hf
      simp only [depthS] at hd
      simp only [decls] at hi
      have hg := ast_grows s i
      have hg2 := ast_grows t (astToInfo s i)
      have p1 : (astToInfo s i).text <+: T := hg2.text.trans hp
      have a1 := ih s ρ ρ1 o1 i m V Q hr1 fs hw.1 p1 he (by omega) (by omega) h
      cases o1 with
      | normal =>
        obtain ⟨V1, k1, k2, k3⟩ := a1
        have hids := hg.ids
        have a2 := ih t ρ1 ρ' o (astToInfo s i) m V1 _ hr (ft ρ1 hr1) hw.2 hp ⟨hg.regs he.regs, k2, hg.lay he.lay, k1⟩ (by omega) (by omega) k3
        have l1 := run_length n hr1
        have l2 := run_length n hr
        cases o with
        | normal => exact a2
        | ret v => exact a2
        | brk =>
          obtain ⟨V2, j1, j2, j3⟩ := a2
          refine ⟨V2, j1, ?_, by rw [← hg.breaks]; exact j3⟩
          rw [← leave_trans l1 l2]
          exact vars_leave j2 hg.locals (vars_length he.vars)
        | cont =>
          obtain ⟨V2, j1, j2, j3⟩ := a2
          refine ⟨V2, j1, ?_, by rw [← hg.continues]; exact j3⟩
          rw [← leave_trans l1 l2]
          exact vars_leave j2 hg.locals (vars_length he.vars)
      | brk => cases hr; exact a1
      | cont => cases hr; exact a1
      | ret v => cases hr; exact a1
    | block s =>
      obtain ⟨⟨ρ1, o1⟩, hr1, hr⟩ := Option.bind_eq_some_iff.1 hr
      cases hr
      have l1 := run_length n hr1
      have a1 := ih s ρ ρ1 o i m V Q hr1 hf hw hp he hd hi h
      cases o with
      | normal =>
        obtain ⟨V1, k1, k2, k3⟩ := a1
        exact ⟨V1, k1, vars_leave k2 (ast_grows s i).locals (vars_length he.vars), k3.text rfl⟩
      | ret v => exact a1
      | brk => obtain ⟨V1, k1, k2, k3⟩ := a1; exact ⟨V1, k1, by rw [leave_self (leave_length l1)]; exact k2, k3⟩
      | cont => obtain ⟨V1, k1, k2, k3⟩ := a1; exact ⟨V1, k1, by rw [leave_self (leave_length l1)]; exact k2, k3⟩
    | ifThen c s =>
      obtain ⟨v, hv, hr⟩ := Option.bind_eq_some_iff.1 hr
      obtain ⟨fc, fs⟩ := hf
      simp only [depthS] at hd
      simp only [decls] at hi
      have hg1 := (compile_grows c).test (lab i ++ "break") i
      have p1 : (appendText (appendText (astToInfo s ((compile c).test (lab i ++ "break") i)) [jump (lab i ++ "break")])
        [[.label (lab i ++ "break")]]).text <+: T := hp
      have p2 := (prefix_append _).trans p1
      have p3 := (prefix_append _).trans p2
      have p4 := (ast_grows s ((compile c).test (lab i ++ "break") i)).text.trans p3
      have ht := (compile_ok hX hT he.vars c).2 0 v (lab i ++ "break") (by omega) fc hv i [] m Q rfl he.regs rfl (by omega) p4 h
      by_cases h0 : v = 0
      · rw [if_neg (by simp [h0])] at hr
        cases hr
        exact ⟨V, he.saved, he.vars, ((ht.2 h0).label hT p1).text rfl⟩
      · rw [if_pos h0] at hr
        obtain ⟨⟨ρ1, o1⟩, hr1, hr⟩ := Option.bind_eq_some_iff.1 hr
        cases hr
        have l1 := run_length n hr1
        have hl := (hg1 0).ext.locals
        have a1 := ih s ρ ρ1 o _ m V _ hr1 (fs v hv h0) hw.2 p3 ⟨(hg1 0).regs he.regs, by rw [hl]; exact he.vars, by rw [hl]; exact he.lay, he.saved⟩
          (by omega) (by rw [hl]; omega) (ht.1 h0)
        cases o with
        | normal =>
          obtain ⟨V1, k1, k2, k3⟩ := a1
          refine ⟨V1, k1, ?_, ((k3.jmp hT p2).label hT p1).text rfl⟩
          exact vars_leave k2 (by have := (ast_grows s ((compile c).test (lab i ++ "break") i)).locals; rwa [hl] at this) (vars_length he.vars)
        | ret v => exact a1
        | brk =>
          obtain ⟨V1, k1, k2, k3⟩ := a1
          exact ⟨V1, k1, by rw [leave_self (leave_length l1), ← hl]; exact k2, by rw [← (hg1 0).ext.breaks]; exact k3⟩
        | cont =>
          obtain ⟨V1, k1, k2, k3⟩ := a1
          exact ⟨V1, k1, by rw [leave_self (leave_length l1), ← hl]; exact k2, by rw [← (hg1 0).ext.continues]; exact k3⟩
    | ifElse c s t =>
      obtain ⟨v, hv, hr⟩ := Option.bind_eq_some_iff.1 hr
      obtain ⟨⟨ρ1, o1⟩, hr1, hr⟩ := Option.bind_eq_some_iff.1 hr
      cases hr
      have l1 := run_length n hr1
      obtain ⟨fc, fs⟩ := hf
      have fs := fs v hv
      simp only [depthS] at hd
      simp only [decls] at hi
      obtain ⟨hs1, hw1, ht1, hw2⟩ := hw
      have hg1 := (compile_grows c).test (lab i ++ "else") i
      have hl := (hg1 0).ext.locals
      let j := (compile c).test (lab i ++ "else") i
      let k := appendText (appendText (astToInfo s j) [jump (lab i ++ "break")]) [[.label (lab i ++ "else")]]
      have p0 : (appendText (astToInfo t k) [[.label (lab i ++ "break")]]).text <+: T := hp
      have p1 := (prefix_append _).trans p0
      have p2 : k.text <+: T := (ast_grows t k).text.trans p1
      have p3 := (prefix_append _).trans p2
      have p4 := (prefix_append _).trans p3
      have p5 := (ast_grows s j).text.trans p4
      have ht := (compile_ok hX hT he.vars c).2 0 v (lab i ++ "else") (by omega) fc hv i [] m Q rfl he.regs rfl (by omega) p5 h
      have sl : (astToInfo s j).locals = i.locals := (single_locals hs1 j).trans hl
      by_cases h0 : v = 0
      · rw [if_neg (by simp [h0])] at hr1 fs
        have s1 := (ht.2 h0).label hT p2
        have kl : k.locals = i.locals := sl
        have a1 := ih t ρ ρ1 o k m V _ hr1 fs hw2 p1
          ⟨(((ast_grows s j).regs ((hg1 0).regs he.regs)).append _).append _, by rw [kl]; exact he.vars, by rw [kl]; exact he.lay, he.saved⟩
          (by omega) (by rw [kl]; omega) s1
        have kb : k.breaks = i.breaks := (ast_grows s j).breaks.trans (hg1 0).ext.breaks
        have kc : k.continues = i.continues := (ast_grows s j).continues.trans (hg1 0).ext.continues
        cases o with
        | normal =>
          obtain ⟨V1, k1, k2, k3⟩ := a1
          refine ⟨V1, k1, ?_, k3.label.text rfl⟩
          exact vars_leave k2 (by have := (ast_grows t k).locals; rwa [kl] at this) (vars_length he.vars)
        | ret v => exact a1
        | brk =>
          obtain ⟨V1, k1, k2, k3⟩ := a1
          exact ⟨V1, k1, by rw [leave_self (leave_length l1), ← kl]; exact k2, by rw [← kb]; exact k3⟩
        | cont =>
          obtain ⟨V1, k1, k2, k3⟩ := a1
          exact ⟨V1, k1, by rw [leave_self (leave_length l1), ← kl]; exact k2, by rw [← kc]; exact k3⟩
      · rw [if_pos h0] at hr1 fs
        have a1 := ih s ρ ρ1 o j m V _ hr1 fs hw1 p4 ⟨(hg1 0).regs he.regs, by rw [hl]; exact he.vars, by rw [hl]; exact he.lay, he.saved⟩
          (by omega) (by rw [hl]; omega) (ht.1 h0)
        cases o with
        | normal =>
          obtain ⟨V1, k1, k2, k3⟩ := a1
          refine ⟨V1, k1, ?_, ((k3.jmp hT p3).label hT p0).text rfl⟩
          exact vars_leave k2 (by have := (ast_grows s j).locals; rwa [hl] at this) (vars_length he.vars)
        | ret v => exact a1
        | brk =>
          obtain ⟨V1, k1, k2, k3⟩ := a1
          exact ⟨V1, k1, by rw [leave_self (leave_length l1), ← hl]; exact k2, by rw [← (hg1 0).ext.breaks]; exact k3⟩
        | cont =>
          obtain ⟨V1, k1, k2, k3⟩ := a1
          exact ⟨V1, k1, by rw [leave_self (leave_length l1), ← hl]; exact k2, by rw [← (hg1 0).ext.continues]; exact k3⟩
    | «while» c s =>
      have hp' : (lEnd (lab i) c s (appendText i [jump (lab i ++ "continue")])).text <+: T := hp
      generalize hk : appendText i [jump (lab i ++ "continue")] = k at hp'
      have e1 := (prefix_append _).trans hp'
      have e2 : (lJump (lab i) c s k).text <+: T := (prefix_append _).trans e1
      have e3 : (lTest (lab i) s k).text <+: T := ((compile_grows c).test _ _ 0).ext.text.trans e2
      have e4 := (prefix_append _).trans e3
      have e5 : (lBody (lab i) k).text <+: T := (ast_grows s (lBody (lab i) k)).text.trans e4
      have e6 : k.text <+: T := (prefix_append _).trans e5
      have kenv : Env X V k ρ := by rw [← hk]; exact he.append _
      have kl : k.locals = i.locals := by rw [← hk]; rfl
      have s1 := (h.jmp hT (by rw [hk]; exact e6)).label hT e3
      have tl : (lTest (lab i) s k).locals = i.locals := (single_locals hw.1 (lBody (lab i) k)).trans kl
      have tenv : Env X V (lTest (lab i) s k) ρ :=
        ⟨((ast_grows s (lBody (lab i) k)).regs (inLoop_env kenv).regs).append _, by rw [tl]; exact he.vars, by rw [tl]; exact he.lay, he.saved⟩
      have := hW c s ρ ρ' o k m V _ (lab i) hr hf hw.1 hw.2 hp' tenv kenv hd (by rw [kl]; simp only [decls] at hi; omega) s1
      have kb : k.breaks = i.breaks := by rw [← hk]; rfl
      have kc : k.continues = i.continues := by rw [← hk]; rfl
      cases o with
      | normal =>
        obtain ⟨V1, k1, k2, k3⟩ := this
        exact ⟨V1, k1, by rw [(while_text c s i).2, ← kl]; exact k2, k3.text (by rw [(while_text c s i).1, hk])⟩
      | ret v => exact this
      | brk =>
        obtain ⟨V1, k1, k2, k3⟩ := this
        exact ⟨V1, k1, by rw [← kl]; exact k2, by rw [← kb]; exact k3⟩
      | cont =>
        obtain ⟨V1, k1, k2, k3⟩ := this
        exact ⟨V1, k1, by rw [← kl]; exact k2, by rw [← kc]; exact k3⟩
    | doWhile s c =>
      obtain ⟨⟨ρ1, o1⟩, hr1, hr⟩ := Option.bind_eq_some_iff.1 hr
      have l1 := run_length n hr1
      obtain ⟨fs, fw⟩ := hf
      have hd' := hd
      simp only [depthS] at hd
      have hp' : (lEnd (lab i) c s i).text <+: T := hp
      have hb := body_ok hT ih (c := c) (l := lab i) hr1 fs hw.1 hw.2 hp' he (by omega) hi (h.none.label (l := lab i ++ "loop") |>.text rfl)
      have again : (o1 = .normal ∨ o1 = .cont) →
          (do let v ← eval (ρ.leave ρ1) c; if v = 0 then some (ρ.leave ρ1, Out.normal) else run n (.doWhile s c) (ρ.leave ρ1)) = some (ρ', o) →
          (∃ V', Env X V' (lTest (lab i) s i) (ρ.leave ρ1) ∧ (lTest (lab i) s i).locals = i.locals ∧
            Reach X V' base m (lTest (lab i) s i) [] (fun _ => True)) → After X base m i (astToInfo (.doWhile s c) i) ρ ρ' o := by
        intro ho hr ⟨V', g1, g2, g3⟩
        obtain ⟨v, hv, hr⟩ := Option.bind_eq_some_iff.1 hr
        obtain ⟨fc, fd⟩ := fw ρ1 o1 hr1 ho
        have ht := test_ok hX hT hv fc hp' g1 (by omega) g3
        have hlen := leave_length l1
        by_cases h0 : v = 0
        · rw [if_pos h0] at hr
          cases hr
          exact ⟨V', g1.saved, by rw [(do_text c s i).2, ← g2]; exact g1.vars, (ht.1 h0).text rfl⟩
        · rw [if_neg h0] at hr
          have := ih (.doWhile s c) (ρ.leave ρ1) ρ' o i m V' _ hr (fd v hv h0) hw hp
            ⟨he.regs, by rw [← g2]; exact g1.vars, he.lay, g1.saved⟩ hd' hi (ht.2 h0)
          cases o with
          | normal => exact this
          | ret v => exact this
          | brk =>
            obtain ⟨V2, k1, k2, k3⟩ := this
            refine ⟨V2, k1, ?_, k3⟩
            rwa [show Store.leave ρ ρ' = Store.leave (ρ.leave ρ1) ρ' by unfold Store.leave at *; rw [hlen]]
          | cont =>
            obtain ⟨V2, k1, k2, k3⟩ := this
            refine ⟨V2, k1, ?_, k3⟩
            rwa [show Store.leave ρ ρ' = Store.leave (ρ.leave ρ1) ρ' by unfold Store.leave at *; rw [hlen]]
      cases o1 with
      | normal => exact again (.inl rfl) hr hb
      | cont => exact again (.inr rfl) hr hb
      | brk =>
        cases hr
        obtain ⟨V', g1, g2, g3⟩ := hb
        exact ⟨V', g1, g2, g3.text rfl⟩
      | ret v =>
        cases hr
        exact hb
    | brk =>
      cases hr
      exact ⟨V, he.saved, by rw [leave_self rfl]; exact he.vars, h.jmp hT hp⟩
    | cont =>
      cases hr
      exact ⟨V, he.saved, by rw [leave_self rfl]; exact he.vars, h.jmp hT hp⟩
    | ret e =>
      obtain ⟨v, hv, hr⟩ := Option.bind_eq_some_iff.1 hr
      cases hr
      have e1 : astToInfo (.ret e) i = appendText (freeRegister (exprToRegister e i)) [Mescc.ret] := by
        show appendText (freeRegister (exprToRegister e (freeAll i))) [Mescc.ret] = _
        rw [freeAll_zero he.regs]
      rw [e1] at hp
      have p1 := (prefix_append _).trans hp
      have r1 := ((compile_grows e).reg i 0).regs he.regs
      have s1 := (compile_ok hX hT he.vars e).1 0 v hf hv i [] m Q rfl he.regs rfl (by simp only [depthS] at hd; omega) (free_text.trans p1) h
      exact (s1.text (free_same r1 (by omega))).ret hT he.saved hp

end

end Mes.X86
