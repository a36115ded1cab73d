import Verif.Proof.MesccNames
import Verif.Proof.MesccDefined
import Verif.Spec.MesccCall

/-
The labels of a text differ from each other, and jumps go to labels of the text.
-/
namespace Mes.X86
open Mes.Mescc Mes.CLang

theorem labelsOf_append (a b : List Line) : labelsOf (a ++ b) = labelsOf a ++ labelsOf b := List.filterMap_append ..

theorem targets_append (a b : List Line) : targets (a ++ b) = targets a ++ targets b := List.flatMap_append ..

/-- Neither labels nor jumps. -/
def quiet : Line → Bool
  | .label _ => false
  | .comment => true
  | .ins _ args => args.all fun a => match a with | .offset _ => false | _ => true

def Quiet (ls : List Line) : Prop := ls.all quiet = true

theorem Quiet.labels {ls : List Line} (h : Quiet ls) : labelsOf ls = [] := by
  induction ls with
  | nil => rfl
  | cons l ls ih =>
    have h : (quiet l && ls.all quiet) = true := h
    rw [Bool.and_eq_true] at h
    cases l with
    | label x => cases h.1
    | comment => exact ih h.2
    | ins _ _ => exact ih h.2

theorem Quiet.targets {ls : List Line} (h : Quiet ls) : X86.targets ls = [] := by
  induction ls with
  | nil => rfl
  | cons l ls ih =>
    have h : (quiet l && ls.all quiet) = true := h
    rw [Bool.and_eq_true] at h
    have := ih h.2
    cases l with
    | label x => cases h.1
    | comment => exact this
    | ins _ args =>
      have ha : args.filterMap jumpTarget = [] := by
        rw [List.filterMap_eq_nil_iff]
        intro a ha
        have := List.all_eq_true.1 (show args.all _ = true from h.1) a ha
        cases a
        · rfl
        · rfl
        · cases this
        · rfl
      show args.filterMap _ ++ X86.targets ls = []
      rw [this, ha]; rfl

/-- From `i` to `i'`, the labels `ls` are emitted, and the jumps go to `J`. -/
structure Emit (i i' : Info) (ls : List Lbl) (J : String → Prop) : Prop where
  text : ∃ t, i'.text = i.text ++ t ∧ labelsOf t.flatten = ls.map (Lbl.str i.function) ∧ ∀ x ∈ targets t.flatten, J x
  function : i'.function = i.function

theorem Emit.refl (i : Info) (J : String → Prop) : Emit i i [] J := ⟨⟨[], by simp, rfl, fun x hx => (nomatch hx)⟩, rfl⟩

theorem Emit.len {i i' : Info} {ls : List Lbl} {J : String → Prop} (h : Emit i i' ls J) : i.text.length ≤ i'.text.length := by
  obtain ⟨t, ht, _⟩ := h.text
  rw [ht, List.length_append]; omega

theorem Emit.trans {i j k : Info} {ls ms : List Lbl} {J : String → Prop} (h : Emit i j ls J) (h' : Emit j k ms J) : Emit i k (ls ++ ms) J := by
  obtain ⟨t, ht, hl, hj⟩ := h.text
  obtain ⟨u, hu, gl, gj⟩ := h'.text
  refine ⟨⟨t ++ u, by rw [hu, ht, List.append_assoc], ?_, fun x hx => ?_⟩, h'.function.trans h.function⟩
  · rw [List.flatten_append, labelsOf_append, hl, gl, List.map_append, h.function]
  · rw [List.flatten_append, targets_append] at hx
    exact (List.mem_append.1 hx).elim (hj x) (gj x)

theorem Emit.weak {i j : Info} {ls : List Lbl} {J J' : String → Prop} (h : Emit i j ls J) (hj : ∀ x, J x → J' x) : Emit i j ls J' := by
  obtain ⟨t, ht, hl, hx⟩ := h.text
  exact ⟨⟨t, ht, hl, fun x m => hj x (hx x m)⟩, h.function⟩

theorem Emit.next {i j k : Info} {ls : List Lbl} {J : String → Prop} (h : Emit i j ls J) (h' : Emit j k [] J) : Emit i k ls J := by
  have := h.trans h'
  rwa [List.append_nil] at this

theorem Emit.pieces (i : Info) {t : List (List Line)} {J : String → Prop} (h : Quiet t.flatten) : Emit i (appendText i t) [] J :=
  ⟨⟨t, rfl, h.labels, fun x hx => by rw [h.targets] at hx; cases hx⟩, rfl⟩

theorem quiet_one {ls : List Line} (h : Quiet ls) : Quiet [ls].flatten := by simpa using h

theorem Quiet.append {a b : List Line} (ha : Quiet a) (hb : Quiet b) : Quiet (a ++ b) := by
  unfold Quiet at *
  rw [List.all_append, ha, hb]; rfl

theorem Emit.piece (i : Info) {ls : List Line} {J : String → Prop} (h : Quiet ls) : Emit i (appendText i [ls]) [] J := .pieces i (quiet_one h)

theorem Emit.label (i : Info) (l : Lbl) {x : String} {J : String → Prop} (h : x = l.str i.function) : Emit i (appendText i [[.label x]]) [l] J :=
  ⟨⟨_, rfl, by rw [h]; rfl, fun x hx => (nomatch hx)⟩, rfl⟩

theorem Emit.jumps (i : Info) {t : List (List Line)} {l : String} {J : String → Prop} (h : labelsOf t.flatten = [])
    (ht : ∀ x ∈ targets t.flatten, x = l) (hj : J l) : Emit i (appendText i t) [] J :=
  ⟨⟨t, rfl, h, fun x hx => by rw [ht x hx]; exact hj⟩, rfl⟩

theorem Emit.jump (i : Info) {l : String} {J : String → Prop} (hj : J l) : Emit i (appendText i [jump l]) [] J :=
  .jumps i rfl (fun x hx => by simpa [Mescc.jump, targets, jumpTarget] using hx) hj

theorem Emit.alloc (i : Info) (J : String → Prop) : Emit i (allocateRegister i) [] J := by
  unfold allocateRegister
  split
  · exact ⟨⟨[], by simp, rfl, fun x hx => (nomatch hx)⟩, rfl⟩
  · have h := Emit.piece { i with pushed := i.pushed + 1 } (J := J) (ls := pushR0 { i with pushed := i.pushed + 1 } ++ r1ToR0 { i with pushed := i.pushed + 1 }) rfl
    exact ⟨h.text, h.function⟩

theorem Emit.free (i : Info) (J : String → Prop) : Emit i (freeRegister i) [] J := by
  unfold freeRegister
  split
  · exact ⟨⟨[], by simp, rfl, fun x hx => (nomatch hx)⟩, rfl⟩
  · have h := Emit.piece { i with pushed := i.pushed - 1 } (J := J) (ls := r0ToR1 { i with pushed := i.pushed - 1 } ++ popR0 { i with pushed := i.pushed - 1 }) rfl
    exact ⟨h.text, h.function⟩

/-! ## The pieces -/

theorem localToR_quiet (i : Info) (id : Int) : Quiet (localToR i id) := by unfold localToR; dsimp only; split <;> rfl
theorem rAddValue_quiet (i : Info) (v : Int) : Quiet (rAddValue i v) := by unfold rAddValue; split <;> rfl
theorem convertR0_quiet (i : Info) (t : Ty) : Quiet (convertR0 i t).flatten := by unfold convertR0; (repeat' split) <;> rfl
theorem identToR_quiet (i : Info) (x : String) : Quiet (identToR i x).flatten := by
  unfold identToR
  split
  · rw [List.flatten_append]; exact (quiet_one (localToR_quiet ..)).append (convertR0_quiet ..)
  · rfl
theorem IsOp.quiet {op : Info → List Line} (h : IsOp op) (i : Info) : Quiet (op i) := by
  cases h
  case add => rfl
  case sub => rfl
  case and => rfl
  case or => rfl
  case xor => rfl
  case shl => rfl
  case shr => rfl
  case mul => unfold r0MulR1; dsimp only; split <;> (try split) <;> rfl
  case div s => show Quiet (r0DivR1 i s); unfold r0DivR1; dsimp only; cases s <;> split <;> (try split) <;> rfl
  case mod s => show Quiet (r0ModR1 i s); unfold r0ModR1; dsimp only; cases s <;> split <;> (try split) <;> rfl
theorem rToIdent_quiet (i : Info) (x : String) : Quiet (rToIdent i x).flatten := by
  unfold rToIdent
  split
  · refine quiet_one ?_; unfold rToLocal; dsimp only; split <;> rfl
  · rfl
theorem rToLocalNText_quiet (i : Info) (l : Local) (n : Int) : Quiet (rToLocalNText i l n).flatten := by
  unfold rToLocalNText
  split
  · refine quiet_one ?_; unfold rToLocalN; dsimp only; split <;> rfl
  · split
    · refine quiet_one ?_; unfold byteRToLocalN; dsimp only; split <;> rfl
    · split
      · refine quiet_one ?_; unfold wordRToLocalN; dsimp only; split <;> rfl
      · refine quiet_one ?_; unfold rToLocalN; dsimp only; split <;> rfl

/-! ## Expressions -/

/-- The labels of an expression: each has a number from `a` to `b`, not `a` itself unless `s`. -/
def Fresh (a b : Nat) (s : Bool) (l : Lbl) : Prop := a ≤ l.num ∧ l.num < b ∧ (s = false → a < l.num)

/-- Something from `a` to `b` is added to a label. -/
def Added (L : Lbl) (a b : Nat) (l : Lbl) : Prop :=
  l.num = L.num ∧ l.kind = L.kind ∧ ∃ xs x, l.path = xs ++ x :: L.path ∧ a ≤ x.2 ∧ x.2 < b

/-- A jump to one of these labels. -/
def To (f : String) (ls : List Lbl) (x : String) : Prop := ∃ l ∈ ls, x = l.str f

structure RegOk (e : Expr) (i i' : Info) (ls : List Lbl) : Prop where
  emit : Emit i i' ls (To i.function ls)
  len : i.text.length < i'.text.length
  nodup : ls.Nodup
  fresh : ∀ l ∈ ls, Fresh i.text.length i'.text.length (leads e) l

structure TestOk (e : Expr) (L : Lbl) (i i' : Info) (ls : List Lbl) : Prop where
  emit : Emit i i' ls (To i.function (L :: ls))
  len : i.text.length < i'.text.length
  nodup : ls.Nodup
  fresh : ∀ l ∈ ls, Fresh i.text.length i'.text.length (leads e) l ∨ Added L i.text.length i'.text.length l

/-- The label of a test comes from before. -/
def Before (L : Lbl) (i : Info) (s : Bool) : Prop := L.num < i.text.length ∨ (L.num = i.text.length ∧ s = false)

structure CodeOk (e : Expr) : Prop where
  reg : ∀ i, ∃ ls, RegOk e i ((compile e).reg i) ls
  test : ∀ i L, Before L i (leads e) → ∃ ls, TestOk e L i ((compile e).test (L.str i.function) i) ls

theorem To.mono {f : String} {ls ms : List Lbl} (h : ∀ l ∈ ls, l ∈ ms) {x : String} (hx : To f ls x) : To f ms x := by
  obtain ⟨l, h1, h2⟩ := hx
  exact ⟨l, h l h1, h2⟩

theorem append_len (i : Info) (t : List (List Line)) : (appendText i t).text.length = i.text.length + t.length := List.length_append

/-- Quiet pieces after an expression. -/
theorem RegOk.next {e e' : Expr} {i j k : Info} {ls : List Lbl} (h : RegOk e i j ls) (h' : Emit j k [] (To i.function ls))
    (he : leads e' = leads e) : RegOk e' i k ls :=
  ⟨h.emit.next h', Nat.lt_of_lt_of_le h.len h'.len, h.nodup, fun l hl => by
    obtain ⟨h1, h2, h3⟩ := h.fresh l hl
    exact ⟨h1, Nat.lt_of_lt_of_le h2 h'.len, by rw [he]; exact h3⟩⟩

/-- Two expressions one after the other. -/
theorem RegOk.two {e a b : Expr} {i j k l : Info} {ls ms : List Lbl} (h : RegOk a i j ls) (hk : Emit j k [] (To i.function (ls ++ ms)))
    (h' : RegOk b k l ms) (he : leads e = leads a) : RegOk e i l (ls ++ ms) := by
  have g1 := h.len
  have g2 := hk.len
  have g3 := h'.len
  have hf : k.function = i.function := hk.function.trans h.emit.function
  refine ⟨?_, by omega, ?_, fun x hx => ?_⟩
  · refine ((h.emit.weak fun x => To.mono fun l hl => List.mem_append.2 (.inl hl)).next hk).trans (h'.emit.weak fun x => ?_)
    rw [hf]
    exact To.mono fun l hl => List.mem_append.2 (.inr hl)
  · refine List.nodup_append.2 ⟨h.nodup, h'.nodup, fun x hx y hy e => ?_⟩
    have p := h.fresh x hx
    have q := h'.fresh y hy
    rw [e] at p
    have := p.2.1
    have := q.1
    omega
  · rcases List.mem_append.1 hx with hx | hx
    · obtain ⟨h1, h2, h3⟩ := h.fresh x hx
      exact ⟨h1, by omega, by rw [he]; exact h3⟩
    · obtain ⟨h1, h2, h3⟩ := h'.fresh x hx
      exact ⟨by omega, h2, fun _ => by omega⟩

theorem jumpWith_labels {e : Expr} {reg : Info → Info} (h : ∀ i, ∃ ls, RegOk e i (reg i) ls) {type : String → List Line} {test : Option (Info → List Line)}
    (ht : type = jumpZ ∨ type = jumpNz) (hz : test = none ∨ test = some rZero) (i : Info) (L : Lbl) :
    ∃ ls, TestOk e L i (jumpWith reg type test (L.str i.function) i) ls := by
  obtain ⟨ls, h⟩ := h i
  have hJ : To i.function (L :: ls) (L.str i.function) := ⟨L, List.mem_cons_self .., rfl⟩
  have hq : Emit (reg i) (jumpWith reg type test (L.str i.function) i) [] (To i.function (L :: ls)) := by
    refine ((Emit.piece _ (ls := [.comment]) rfl).next ?_).next (.free _ _)
    refine Emit.jumps _ (l := L.str i.function) ?_ (fun x hx => ?_) hJ
    · rcases ht with rfl | rfl <;> rcases hz with rfl | rfl <;> rfl
    · rcases ht with rfl | rfl <;> rcases hz with rfl | rfl <;> simpa [targets, jumpZ, jumpNz, rZero, jumpTarget] using hx
  have h1 : Emit i (jumpWith reg type test (L.str i.function) i) ls (To i.function (L :: ls)) :=
    (h.emit.weak fun x => To.mono fun l hl => List.mem_cons_of_mem _ hl).next hq
  have h2 := hq.len
  exact ⟨ls, h1, Nat.lt_of_lt_of_le h.len h2, h.nodup, fun l hl => .inl (by
    obtain ⟨p, q, r⟩ := h.fresh l hl
    exact ⟨p, Nat.lt_of_lt_of_le q h2, r⟩)⟩

theorem leaf_labels {e : Expr} (f : Info → List (List Line)) (hf : ∀ i, Quiet (f i).flatten) (hn : ∀ i, f i ≠ []) (i : Info) :
    ∃ ls, RegOk e i (let i := allocateRegister i; appendText i (f i)) ls :=
  ⟨[], (Emit.alloc i _).next (.pieces _ (hf _)), by
    show _ < (appendText _ _).text.length
    rw [append_len]
    have := (Emit.alloc i fun _ => True).len
    have := List.length_pos_iff.2 (hn (allocateRegister i))
    omega, List.nodup_nil, fun l hl => (nomatch hl)⟩

theorem binopToR_labels {e a b : Expr} (ha : CodeOk a) (hb : CodeOk b) {op : Info → List Line} (ho : IsOp op) (he : leads e = leads a) (i : Info) :
    ∃ ls, RegOk e i (binopToR (compile a) (compile b) op i) ls := by
  obtain ⟨ls, h⟩ := ha.reg i
  obtain ⟨ms, h'⟩ := hb.reg ((compile a).reg i)
  exact ⟨ls ++ ms, (h.two (e := e) (.refl _ _) h' he).next ((Emit.piece _ (ho.quiet _)).next (.free _ _)) rfl⟩

theorem binToRegister_labels {e a b : Expr} (ha : CodeOk a) (hb : CodeOk b) (op : Binop) (fixed : Option Const) (he : leads e = leads a) (i : Info)
    (s u : Bool) : ∃ ls, RegOk e i (binToRegister op (compile a) (compile b) fixed i s u) ls := by
  have hadd : ∀ (v : Int), ∃ ls, RegOk e i (appendText ((compile a).reg i) [rAddValue ((compile a).reg i) v]) ls := fun v => by
    obtain ⟨ls, h⟩ := ha.reg i
    exact ⟨ls, h.next (.piece _ (rAddValue_quiet ..)) he⟩
  have hop : ∀ {f}, IsOp f → ∃ ls, RegOk e i (binopToR (compile a) (compile b) f i) ls := fun h => binopToR_labels ha hb h he i
  have hcmp : ∀ (set : String), ∃ ls, RegOk e i (compareToR (compile a) (compile b) set i) ls := fun set => by
    obtain ⟨ls, h⟩ := hop .sub
    exact ⟨ls, h.next ((Emit.piece _ (ls := ccToR set _) rfl).next (Emit.piece _ (ls := testR _) rfl)) rfl⟩
  cases op with
  | add => cases fixed with
    | none => exact hop .add
    | some c => exact hadd _
  | sub => cases fixed with
    | none => exact hop .sub
    | some c => exact hadd _
  | mul => exact hop .mul
  | div => exact hop (.div s)
  | mod => exact hop (.mod s)
  | and => exact hop .and
  | or => exact hop .or
  | xor => exact hop .xor
  | shl => exact hop .shl
  | shr => exact hop .shr
  | eq =>
    obtain ⟨ls, h⟩ := hop .sub
    exact ⟨ls, h.next (Emit.piece _ (ls := zfToR _) rfl) rfl⟩
  | ne =>
    obtain ⟨ls, h⟩ := hop .sub
    exact ⟨ls, h.next ((Emit.piece _ (ls := testR _) rfl).next ((Emit.piece _ (ls := xorZf) rfl).next (Emit.piece _ (ls := zfToR _) rfl))) rfl⟩
  | ge => exact hcmp _
  | gt => exact hcmp _
  | le => exact hcmp _
  | lt => exact hcmp _

/-- Something added to a label makes another one. -/
theorem Added.ne {L l : Lbl} {a b : Nat} (h : Added L a b l) : l ≠ L := by
  rintro rfl
  obtain ⟨_, _, xs, x, h, _⟩ := h
  have := congrArg List.length h
  simp only [List.length_append, List.length_cons] at this
  omega

/-- Different things added to a label make different labels. -/
theorem Added.ne' {L l l' : Lbl} {a b a' b' : Nat} (h : Added L a b l) (h' : Added L a' b' l') (hb : b ≤ a') : l ≠ l' := by
  rintro rfl
  obtain ⟨_, _, xs, x, h1, h2, h3⟩ := h
  obtain ⟨_, _, ys, y, g1, g2, g3⟩ := h'
  rw [h1] at g1
  have e := congrArg List.reverse g1
  simp only [List.reverse_append, List.reverse_cons, List.append_assoc] at e
  have e := List.append_cancel_left e
  have e := (List.cons.inj (show x :: xs.reverse = y :: ys.reverse from e)).1
  rw [e] at h3
  omega

theorem Fresh.mono {a b a' b' : Nat} {s s' : Bool} {l : Lbl} (h : Fresh a b s l) (ha : a' ≤ a) (hb : b ≤ b') (hs : a' < a ∨ s' = s) :
    Fresh a' b' s' l := by
  obtain ⟨h1, h2, h3⟩ := h
  refine ⟨by omega, by omega, fun h => ?_⟩
  rcases hs with hs | hs
  · omega
  · rw [hs] at h; have := h3 h; omega

theorem Added.mono {L l : Lbl} {a b a' b' : Nat} (h : Added L a b l) (ha : a' ≤ a) (hb : b ≤ b') : Added L a' b' l := by
  obtain ⟨h1, h2, xs, x, h3, h4, h5⟩ := h
  exact ⟨h1, h2, xs, x, h3, by omega, by omega⟩

/-- `a && b` and `a || b` as values: two expressions, and a label of its own after the second. -/
theorem RegOk.skip {e a b : Expr} {i j k k1 o : Info} {ls ms : List Lbl} {S : Lbl} (h : RegOk a i j ls)
    (hj : Emit j k [] (To i.function (ls ++ (ms ++ [S])))) (lj : j.text.length < k.text.length) (h' : RegOk b k k1 ms)
    (hk : Emit k1 o [S] (To i.function (ls ++ (ms ++ [S])))) (lk : k1.text.length < o.text.length)
    (he : leads e = leads a) (hS : S.num = j.text.length) : RegOk e i o (ls ++ (ms ++ [S])) := by
  have fj : j.function = i.function := h.emit.function
  have fk : k.function = i.function := hj.function.trans fj
  have li := h.len
  have lb := h'.len
  refine ⟨?_, by omega, ?_, fun l hl => ?_⟩
  · refine ((h.emit.weak fun x => To.mono fun l hl => by simp [hl]).next hj).trans (Emit.trans (h'.emit.weak fun x => ?_) hk)
    rw [fk]
    exact To.mono fun l hl => by simp [hl]
  · refine List.nodup_append.2 ⟨h.nodup, List.nodup_append.2 ⟨h'.nodup, by simp, fun x hx y hy e => ?_⟩, fun x hx y hy e => ?_⟩
    · have p := (h'.fresh x hx).1
      rw [e, List.mem_singleton.1 hy, hS] at p
      omega
    · have p := (h.fresh x hx).2.1
      rw [e] at p
      rcases List.mem_append.1 hy with hy | hy
      · have q := (h'.fresh y hy).1
        omega
      · rw [List.mem_singleton.1 hy, hS] at p
        omega
  · rcases List.mem_append.1 hl with hl | hl
    · exact (h.fresh l hl).mono (Nat.le_refl _) (by omega) (.inr he)
    · rcases List.mem_append.1 hl with hl | hl
      · exact (h'.fresh l hl).mono (by omega) (by omega) (.inl (by omega))
      · rw [List.mem_singleton.1 hl]
        exact ⟨by omega, by omega, fun _ => by omega⟩

theorem skip_labels {e a b : Expr} (ha : CodeOk a) (hb : CodeOk b) (i : Info) (he : leads e = leads a) {type : String → List Line}
    (ht : type = jumpZ ∨ type = jumpNz) (S : Lbl) (hS : S.num = ((compile a).reg i).text.length)
    {skip : String} (hs : skip = S.str ((compile a).reg i).function) :
    ∃ ls, RegOk e i (appendText (appendText ((compile b).reg (freeRegister (appendText (appendText (appendText ((compile a).reg i) [testR ((compile a).reg i)])
        [type skip]) [testR (appendText (appendText ((compile a).reg i) [testR ((compile a).reg i)]) [type skip])])))
      [testR ((compile b).reg (freeRegister (appendText (appendText (appendText ((compile a).reg i) [testR ((compile a).reg i)])
        [type skip]) [testR (appendText (appendText ((compile a).reg i) [testR ((compile a).reg i)]) [type skip])])))]) [[.label skip]]) ls := by
  obtain ⟨ls, h⟩ := ha.reg i
  have fj := h.emit.function
  rw [fj] at hs
  revert h hS fj
  generalize (compile a).reg i = j
  intro hS h fj
  obtain ⟨ms, h'⟩ := hb.reg (freeRegister (appendText (appendText (appendText j [testR j]) [type skip]) [testR (appendText (appendText j [testR j]) [type skip])]))
  have fk1 := h'.emit.function.trans ((Emit.free (appendText (appendText (appendText j [testR j]) [type skip]) [testR (appendText (appendText j [testR j]) [type skip])]) fun _ => True).function)
  refine ⟨_, h.skip (S := S) ?_ ?_ h' ?_ ?_ he hS⟩
  · refine (((Emit.piece j (ls := testR j) rfl).next (Emit.jumps _ (l := skip) ?_ (fun x hx => ?_) ?_)).next (Emit.piece _ (ls := testR _) rfl)).next (.free _ _)
    · rcases ht with rfl | rfl <;> rfl
    · rcases ht with rfl | rfl <;> simpa [targets, jumpZ, jumpNz, jumpTarget] using hx
    · exact ⟨S, by simp, hs⟩
  · refine Nat.lt_of_lt_of_le ?_ (Emit.free _ fun _ => True).len
    rw [append_len, append_len, append_len]
    show _ < _ + 1 + 1 + 1
    omega
  · exact Emit.trans (Emit.piece _ (ls := testR _) rfl) (Emit.label _ S (hs.trans (by rw [show (appendText _ _).function = _ from fk1]; exact congrArg (fun f => Lbl.str f S) fj.symm)))
  · rw [append_len, append_len]
    show _ < _ + 1 + 1
    omega

theorem Before.later {L : Lbl} {i j : Info} {s s' : Bool} (h : Before L i s) (hl : i.text.length < j.text.length) : Before L j s' := by
  rcases h with h | h
  · exact .inl (by omega)
  · exact .inl (by omega)

theorem fresh_num {L : Lbl} {i : Info} {b : Nat} {s : Bool} {l : Lbl} (hb : Before L i s) (h : Fresh i.text.length b s l) : l.num ≠ L.num := by
  obtain ⟨h1, h2, h3⟩ := h
  rcases hb with hb | ⟨hb, hs⟩
  · omega
  · have := h3 hs; omega

/-- The labels of one test after another, with the same label. -/
theorem land_labels {a b : Expr} (ha : CodeOk a) (hb : CodeOk b) {i : Info} {L : Lbl} (hB : Before L i (leads (.land a b))) :
    ∃ ls, TestOk (.land a b) L i ((compile (.land a b)).test (L.str i.function) i) ls := by
  obtain ⟨ls, h⟩ := ha.test i L hB
  have fj := h.emit.function
  obtain ⟨ms, h'⟩ := hb.test ((compile a).test (L.str i.function) i) L (hB.later h.len)
  rw [fj] at h'
  have l1 := h.len
  have l2 := h'.len
  refine ⟨ls ++ ms, ?_, Nat.lt_trans l1 l2, ?_, fun l hl => ?_⟩
  · exact (h.emit.weak fun x => To.mono fun l hl => by rcases List.mem_cons.1 hl with rfl | hl <;> simp [*]).trans (h'.emit.weak fun x => by
      rw [fj]; exact To.mono fun l hl => by rcases List.mem_cons.1 hl with rfl | hl <;> simp [*])
  · refine List.nodup_append.2 ⟨h.nodup, h'.nodup, fun x hx y hy e => ?_⟩
    subst e
    rcases h.fresh x hx with p | p <;> rcases h'.fresh x hy with q | q
    · have := p.2.1; have := q.1; omega
    · exact fresh_num hB p q.1
    · exact fresh_num (hB.later l1) q p.1
    · exact p.ne' q (Nat.le_refl _) rfl
  · rcases List.mem_append.1 hl with hl | hl
    · exact (h.fresh l hl).imp (fun p => p.mono (Nat.le_refl _) (Nat.le_of_lt l2) (.inr rfl)) fun p => p.mono (Nat.le_refl _) (Nat.le_of_lt l2)
    · exact (h'.fresh l hl).imp (fun p => p.mono (Nat.le_of_lt l1) (Nat.le_refl _) (.inl l1)) fun p => p.mono (Nat.le_of_lt l1) (Nat.le_refl _)

/-- `a || b` as a condition. -/
theorem TestOk.lor {a b : Expr} {L K M : Lbl} {i j k o o1 : Info} {ls ms : List Lbl} (hB : Before L i (leads (.lor a b)))
    (hK : K = L.ext true i.text.length) (hM : M = L.ext false i.text.length)
    (h : TestOk a M i j ls) (hj : Emit j k [M] (To i.function (L :: (ls ++ (M :: (ms ++ [K])))))) (lj : j.text.length < k.text.length)
    (h' : TestOk b L k o ms) (ho : Emit o o1 [K] (To i.function (L :: (ls ++ (M :: (ms ++ [K])))))) :
    TestOk (.lor a b) L i o1 (ls ++ (M :: (ms ++ [K]))) := by
  have fj : j.function = i.function := h.emit.function
  have fk : k.function = i.function := hj.function.trans fj
  have l1 := h.len
  have l2 := h'.len
  have l3 := ho.len
  have pK : K.num = L.num ∧ K.kind = L.kind ∧ K.path = (true, i.text.length) :: L.path := by rw [hK]; exact ⟨rfl, rfl, rfl⟩
  have pM : M.num = L.num ∧ M.kind = L.kind ∧ M.path = (false, i.text.length) :: L.path := by rw [hM]; exact ⟨rfl, rfl, rfl⟩
  clear hK hM
  have eM : Added L i.text.length (i.text.length + 1) M := ⟨pM.1, pM.2.1, [], (false, i.text.length), pM.2.2, Nat.le_refl _, Nat.lt_succ_self _⟩
  have eK : Added L i.text.length (i.text.length + 1) K := ⟨pK.1, pK.2.1, [], (true, i.text.length), pK.2.2, Nat.le_refl _, Nat.lt_succ_self _⟩
  have eX : ∀ {l b c}, Added M b c l → Added L i.text.length (i.text.length + 1) l := fun {l b c} p => by
    obtain ⟨p1, p2, xs, x, p3, _⟩ := p
    exact ⟨p1.trans pM.1, p2.trans pM.2.1, xs ++ [x], (false, i.text.length), by rw [p3, pM.2.2]; simp, Nat.le_refl _, Nat.lt_succ_self _⟩
  have MK : M ≠ K := fun e => by
    have := congrArg Lbl.path e
    rw [pM.2.2, pK.2.2] at this
    have := congrArg Prod.fst (List.cons.inj this).1
    cases this
  have XK : ∀ {l b c}, Added M b c l → l ≠ K := fun {l b c} p e => by
    obtain ⟨p1, p2, xs, x, p3, _⟩ := p
    rw [e, pK.2.2, pM.2.2] at p3
    have := congrArg List.length p3
    simp only [List.length_append, List.length_cons] at this
    omega
  have hms : ∀ x ∈ ms, x.num ≠ L.num ∨ Added L k.text.length o.text.length x := fun x hx =>
    (h'.fresh x hx).imp (fun p => fresh_num (hB.later (by omega)) p) id
  have hbM : Before M i (leads a) := by unfold Before; rw [pM.1]; exact hB
  refine ⟨?_, by omega, ?_, fun l hl => ?_⟩
  · refine (h.emit.weak fun x => To.mono fun l hl => ?_).trans (Emit.trans (ls := [M]) hj (Emit.trans (h'.emit.weak fun x => ?_) ho))
    · rcases List.mem_cons.1 hl with rfl | hl <;> simp [*]
    · rw [fk]
      exact To.mono fun l hl => by rcases List.mem_cons.1 hl with rfl | hl <;> simp [*]
  · refine List.nodup_append.2 ⟨h.nodup, List.nodup_cons.2 ⟨fun hm => ?_, List.nodup_append.2 ⟨h'.nodup, by simp, fun x hx y hy e => ?_⟩⟩,
      fun x hx y hy e => ?_⟩
    · rcases List.mem_append.1 hm with hm | hm
      · rcases hms M hm with p | p
        · exact p pM.1
        · exact eM.ne' p (by omega) rfl
      · exact MK (List.mem_singleton.1 hm)
    · rw [e, List.mem_singleton.1 hy] at hx
      rcases hms K hx with p | p
      · exact p pK.1
      · exact eK.ne' p (by omega) rfl
    · subst e
      rcases h.fresh x hx with p | p
      · have hx1 : x.num ≠ L.num := by rw [← pM.1]; exact fresh_num hbM p
        rcases List.mem_cons.1 hy with hy | hy
        · exact hx1 (by rw [hy, pM.1])
        · rcases List.mem_append.1 hy with hy | hy
          · rcases h'.fresh x hy with q | q
            · have := p.2.1; have := q.1
              omega
            · exact hx1 q.1
          · exact hx1 (by rw [List.mem_singleton.1 hy, pK.1])
      · rcases List.mem_cons.1 hy with hy | hy
        · exact p.ne hy
        · rcases List.mem_append.1 hy with hy | hy
          · rcases hms x hy with q | q
            · exact q (p.1.trans pM.1)
            · exact (eX p).ne' q (by omega) rfl
          · exact XK p (List.mem_singleton.1 hy)
  · rcases List.mem_append.1 hl with hl | hl
    · rcases h.fresh l hl with p | p
      · exact .inl (p.mono (Nat.le_refl _) (by omega) (.inr rfl))
      · exact .inr ((eX p).mono (Nat.le_refl _) (by omega))
    · rcases List.mem_cons.1 hl with rfl | hl
      · exact .inr (eM.mono (Nat.le_refl _) (by omega))
      · rcases List.mem_append.1 hl with hl | hl
        · exact (h'.fresh l hl).imp (fun p => p.mono (by omega) (by omega) (.inl (by omega))) fun p => p.mono (by omega) (by omega)
        · rw [List.mem_singleton.1 hl]
          exact .inr (eK.mono (Nat.le_refl _) (by omega))

theorem lor_labels {a b : Expr} (ha : CodeOk a) (hb : CodeOk b) {i : Info} {L : Lbl} (hB : Before L i (leads (.lor a b))) :
    ∃ ls, TestOk (.lor a b) L i ((compile (.lor a b)).test (L.str i.function) i) ls := by
  have heq : (compile (.lor a b)).test (L.str i.function) i = appendText ((compile b).test (L.str i.function) (appendText (appendText
      ((compile a).test ((L.ext false i.text.length).str i.function) i) [jump ((L.ext true i.text.length).str i.function)])
      [[.label ((L.ext false i.text.length).str i.function)]])) [[.label ((L.ext true i.text.length).str i.function)]] := by
    rw [Lbl.str_b, Lbl.str_skip]; rfl
  rw [heq]
  obtain ⟨ls, h⟩ := ha.test i (L.ext false i.text.length) hB
  have fj := h.emit.function
  revert h fj
  generalize (compile a).test ((L.ext false i.text.length).str i.function) i = j
  intro h fj
  have lj := h.len
  obtain ⟨ms, h'⟩ := hb.test (appendText (appendText j [jump ((L.ext true i.text.length).str i.function)]) [[.label ((L.ext false i.text.length).str i.function)]]) L
    (hB.later (by rw [append_len, append_len]; omega))
  rw [show (appendText (appendText j _) _).function = i.function from fj] at h'
  have fo := h'.emit.function.trans fj
  refine ⟨_, TestOk.lor hB rfl rfl h ?_ ?_ h' ?_⟩
  · exact Emit.trans (Emit.jump j ⟨_, by simp, rfl⟩) (Emit.label _ _ (by rw [show (appendText j _).function = i.function from fj]))
  · rw [append_len, append_len]; show _ < _ + 1 + 1; omega
  · exact Emit.label _ _ (by rw [fo])

theorem RegOk.cond {a b c : Expr} {E B : Lbl} {i j j1 k k1 o : Info} {la lb lc : List Lbl} (hl : leads a = false)
    (hE : E = ⟨i.text.length, .els, []⟩) (hB : B = ⟨i.text.length, .brk, []⟩)
    (h1 : TestOk a E i j la) (h2 : RegOk b j j1 lb) (hk : Emit j1 k [E] (To i.function (la ++ (lb ++ (E :: (lc ++ [B]))))))
    (h3 : RegOk c k k1 lc) (ho : Emit k1 o [B] (To i.function (la ++ (lb ++ (E :: (lc ++ [B])))))) :
    RegOk (.cond a b c) i o (la ++ (lb ++ (E :: (lc ++ [B])))) := by
  have fj : j.function = i.function := h1.emit.function
  have fj1 : j1.function = i.function := h2.emit.function.trans fj
  have fk : k.function = i.function := hk.function.trans fj1
  have l1 := h1.len
  have l2 := h2.len
  have l3 := hk.len
  have l4 := h3.len
  have l5 := ho.len
  have nE : E.num = i.text.length := by rw [hE]
  have nB : B.num = i.text.length := by rw [hB]
  have EB : E ≠ B := fun e => by rw [hE, hB] at e; cases e
  have fa : ∀ x ∈ la, (i.text.length < x.num ∧ x.num < j.text.length) ∨ Added E i.text.length j.text.length x := fun x hx =>
    (h1.fresh x hx).imp (fun p => ⟨p.2.2 hl, p.2.1⟩) id
  have aB : ∀ {x}, Added E i.text.length j.text.length x → x ≠ B := fun {x} p e => by
    have := p.2.1
    rw [e, hE, hB] at this
    cases this
  clear hE hB
  refine ⟨?_, by omega, ?_, fun l hl => ?_⟩
  · refine (h1.emit.weak fun x => To.mono fun l hl => ?_).trans (Emit.trans (h2.emit.weak fun x => ?_) (Emit.trans (ls := [E]) hk (Emit.trans (h3.emit.weak fun x => ?_) ho)))
    · rcases List.mem_cons.1 hl with rfl | hl <;> simp [*]
    · rw [fj]; exact To.mono fun l hl => by simp [*]
    · rw [fk]; exact To.mono fun l hl => by simp [*]
  · refine List.nodup_append.2 ⟨h1.nodup, List.nodup_append.2 ⟨h2.nodup, List.nodup_cons.2 ⟨fun hm => ?_, List.nodup_append.2 ⟨h3.nodup, by simp, fun x hx y hy e => ?_⟩⟩,
      fun x hx y hy e => ?_⟩, fun x hx y hy e => ?_⟩
    · rcases List.mem_append.1 hm with hm | hm
      · have := (h3.fresh E hm).1; omega
      · exact EB (List.mem_singleton.1 hm)
    · have := (h3.fresh x hx).1
      rw [e, List.mem_singleton.1 hy] at this; omega
    · have p := h2.fresh x hx
      have p1 := p.1
      have p2 := p.2.1
      rcases List.mem_cons.1 hy with hy | hy
      · rw [e, hy] at p1; omega
      · rcases List.mem_append.1 hy with hy | hy
        · have := (h3.fresh y hy).1
          rw [e] at p2; omega
        · rw [e, List.mem_singleton.1 hy] at p1; omega
    · subst e
      have later : ∀ n, j.text.length ≤ n → x.num ≠ n := fun n hn e => by
        rcases fa x hx with p | p
        · omega
        · have := p.1; omega
      rcases List.mem_append.1 hy with hy | hy
      · exact later _ (h2.fresh x hy).1 rfl
      · rcases List.mem_cons.1 hy with hy | hy
        · rcases fa x hx with p | p
          · rw [hy] at p; omega
          · exact p.ne hy
        · rcases List.mem_append.1 hy with hy | hy
          · exact later _ (by have := (h3.fresh x hy).1; omega) rfl
          · rcases fa x hx with p | p
            · rw [List.mem_singleton.1 hy] at p; omega
            · exact aB p (List.mem_singleton.1 hy)
  · have ok : i.text.length ≤ l.num → l.num < o.text.length → Fresh i.text.length o.text.length (leads (.cond a b c)) l := fun h h' =>
      ⟨h, h', fun h => (nomatch h)⟩
    rcases List.mem_append.1 hl with hl | hl
    · rcases fa l hl with p | p
      · exact ok (by omega) (by omega)
      · have := p.1; exact ok (by omega) (by omega)
    · rcases List.mem_append.1 hl with hl | hl
      · have p := h2.fresh l hl
        have := p.1; have := p.2.1
        exact ok (by omega) (by omega)
      · rcases List.mem_cons.1 hl with rfl | hl
        · exact ok (by omega) (by omega)
        · rcases List.mem_append.1 hl with hl | hl
          · have p := h3.fresh l hl
            have := p.1; have := p.2.1
            exact ok (by omega) (by omega)
          · have : l.num = B.num := by rw [List.mem_singleton.1 hl]
            exact ok (by omega) (by omega)

theorem cond_labels {a b c : Expr} (ha : CodeOk a) (hb : CodeOk b) (hc : CodeOk c) (hl : leads a = false) {i : Info} :
    ∃ ls, RegOk (.cond a b c) i ((compile (.cond a b c)).reg i) ls := by
  have heq : (compile (.cond a b c)).reg i = allocateRegister (appendText (freeRegister ((compile c).reg (appendText (appendText (freeRegister ((compile b).reg
      ((compile a).test ((Lbl.mk i.text.length .els []).str i.function) i))) [jump ((Lbl.mk i.text.length .brk []).str i.function)])
      [[.label ((Lbl.mk i.text.length .els []).str i.function)]]))) [[.label ((Lbl.mk i.text.length .brk []).str i.function)]]) := by
    rw [Lbl.str_nil, Lbl.str_nil]; rfl
  rw [heq]
  obtain ⟨la, h1⟩ := ha.test i ⟨i.text.length, .els, []⟩ (.inr ⟨rfl, hl⟩)
  have fj := h1.emit.function
  revert h1 fj
  generalize (compile a).test ((Lbl.mk i.text.length .els []).str i.function) i = j
  intro h1 fj
  obtain ⟨lb, h2⟩ := hb.reg j
  have fj1 := h2.emit.function.trans fj
  revert h2 fj1
  generalize (compile b).reg j = j1
  intro h2 fj1
  have ff := (Emit.free j1 fun _ => True).function.trans fj1
  obtain ⟨lc, h3⟩ := hc.reg (appendText (appendText (freeRegister j1) [jump ((Lbl.mk i.text.length .brk []).str i.function)])
    [[.label ((Lbl.mk i.text.length .els []).str i.function)]])
  have fk1 := h3.emit.function.trans ff
  refine ⟨_, RegOk.cond hl rfl rfl h1 h2 ?_ h3 ?_⟩
  · exact Emit.trans (Emit.next (.free j1 _) (Emit.jump _ ⟨_, by simp, rfl⟩)) (Emit.label _ _ (by rw [show (appendText _ _).function = i.function from ff]))
  · exact Emit.trans (ls := []) (.free _ _) (Emit.next (Emit.label _ _ (by rw [(Emit.free _ fun _ => True).function, fk1])) (.alloc _ _))

theorem compile_labels (e : Expr) (hl : led e = true) : CodeOk e := by
  have jz := fun {e : Expr} {reg : Info → Info} (h : ∀ i, ∃ ls, RegOk e i (reg i) ls) i L (_ : Before L i (leads e)) =>
    jumpWith_labels h (type := jumpZ) (.inl rfl) (test := some rZero) (.inr rfl) i L
  have jn := fun {e : Expr} {reg : Info → Info} (h : ∀ i, ∃ ls, RegOk e i (reg i) ls) i L (_ : Before L i (leads e)) =>
    jumpWith_labels h (type := jumpZ) (.inl rfl) (test := none) (.inl rfl) i L
  have jnz := fun {e : Expr} {reg : Info → Info} (h : ∀ i, ∃ ls, RegOk e i (reg i) ls) i L (_ : Before L i (leads e)) =>
    jumpWith_labels h (type := jumpNz) (.inr rfl) (test := none) (.inl rfl) i L
  induction e with
  | fixed c =>
    have hreg : ∀ i, ∃ ls, RegOk (.fixed c) i ((compile (.fixed c)).reg i) ls := leaf_labels (fun i => [valueToR i c.value]) (fun _ => rfl) (fun _ h => nomatch h)
    exact ⟨hreg, jz hreg⟩
  | chr c =>
    have hreg : ∀ i, ∃ ls, RegOk (.chr c) i ((compile (.chr c)).reg i) ls := leaf_labels (fun i => [valueToR i c]) (fun _ => rfl) (fun _ h => nomatch h)
    exact ⟨hreg, jz hreg⟩
  | ident x =>
    have hreg : ∀ i, ∃ ls, RegOk (.ident x) i ((compile (.ident x)).reg i) ls := leaf_labels (fun i => identToR i x) (fun i => identToR_quiet i x) (fun i h => by
      unfold identToR at h
      split at h <;> cases h)
    exact ⟨hreg, jz hreg⟩
  | un op a ih =>
    have ih := ih hl
    cases op with
    | neg =>
      have hreg : ∀ i, ∃ ls, RegOk (.un .neg a) i ((compile (.un .neg a)).reg i) ls := by
        intro i
        unfold compile
        dsimp only
        cases isFixed a with
        | some c => exact leaf_labels (fun i => [valueToR i (-c.value)]) (fun _ => rfl) (fun _ h => nomatch h) i
        | none =>
          obtain ⟨ls, h⟩ := ih.reg i
          exact ⟨ls, h.next ((Emit.alloc _ _).next ((Emit.pieces (allocateRegister ((compile a).reg i)) (t := [valueToR _ 0] ++ [swapR0R1 _] ++ [r0SubR1 _]) rfl).next (.free _ _))) rfl⟩
      exact ⟨hreg, jz hreg⟩
    | pos =>
      have hreg : ∀ i, ∃ ls, RegOk (.un .pos a) i ((compile (.un .pos a)).reg i) ls := fun i => by
        obtain ⟨ls, h⟩ := ih.reg i
        exact ⟨ls, h.next (.refl _ _) rfl⟩
      exact ⟨hreg, jz hreg⟩
    | bitNot =>
      have hreg : ∀ i, ∃ ls, RegOk (.un .bitNot a) i ((compile (.un .bitNot a)).reg i) ls := fun i => by
        obtain ⟨ls, h⟩ := ih.reg i
        exact ⟨ls, h.next (.piece _ rfl) rfl⟩
      exact ⟨hreg, jz hreg⟩
    | not =>
      have hreg : ∀ i, ∃ ls, RegOk (.un .not a) i ((compile (.un .not a)).reg i) ls := fun i => by
        obtain ⟨ls, h⟩ := ih.reg i
        exact ⟨ls, h.next ((Emit.piece _ (ls := testR _) rfl).next ((Emit.piece _ (ls := rNegate _) rfl).next (Emit.piece _ (ls := testR _) rfl))) rfl⟩
      exact ⟨hreg, jn hreg⟩
  | bin op a b iha ihb =>
    have hl : (led a && led b) = true := hl
    rw [Bool.and_eq_true] at hl
    have hreg : ∀ i, ∃ ls, RegOk (.bin op a b) i ((compile (.bin op a b)).reg i) ls := fun i =>
      binToRegister_labels (e := .bin op a b) (iha hl.1) (ihb hl.2) op _ rfl i _ _
    refine ⟨hreg, fun i L hb => ?_⟩
    cases op
    all_goals first
      | exact jz hreg i L hb
      | exact jn hreg i L hb
      | exact jnz hreg i L hb
  | land a b iha ihb =>
    have hl : (led a && led b) = true := hl
    rw [Bool.and_eq_true] at hl
    refine ⟨fun i => ?_, fun i L hb => ?_⟩
    · exact skip_labels (e := .land a b) (iha hl.1) (ihb hl.2) i rfl (type := jumpZ) (.inl rfl) ⟨((compile a).reg i).text.length, .andSkip, []⟩ rfl
        (skip := "_" ++ ((compile a).reg i).function ++ "_" ++ numberString ((compile a).reg i).text.length ++ "_and_skip_b")
        (by rw [show "_and_skip_b" = "_" ++ Kind.andSkip.str by decide +kernel, Lbl.str_nil]; exact String.append_assoc.symm)
    · exact land_labels (iha hl.1) (ihb hl.2) hb
  | lor a b iha ihb =>
    have hl : (led a && led b) = true := hl
    rw [Bool.and_eq_true] at hl
    refine ⟨fun i => ?_, fun i L hb => ?_⟩
    · exact skip_labels (e := .lor a b) (iha hl.1) (ihb hl.2) i rfl (type := jumpNz) (.inr rfl) ⟨((compile a).reg i).text.length, .orSkip, []⟩ rfl
        (skip := "_" ++ ((compile a).reg i).function ++ "_" ++ numberString ((compile a).reg i).text.length ++ "_or_skip_b")
        (by rw [show "_or_skip_b" = "_" ++ Kind.orSkip.str by decide +kernel, Lbl.str_nil]; exact String.append_assoc.symm)
    · exact lor_labels (iha hl.1) (ihb hl.2) hb
  | cond a b c iha ihb ihc =>
    have hl : (!leads a && led a && led b && led c) = true := hl
    simp only [Bool.and_eq_true, Bool.not_eq_true'] at hl
    have hreg : ∀ i, ∃ ls, RegOk (.cond a b c) i ((compile (.cond a b c)).reg i) ls := fun i =>
      cond_labels (iha hl.1.1.2) (ihb hl.1.2) (ihc hl.2) hl.1.1.1
    exact ⟨hreg, jz hreg⟩
  | cast t a ih =>
    have ih := ih hl
    have hreg : ∀ i, ∃ ls, RegOk (.cast t a) i ((compile (.cast t a)).reg i) ls := fun i => by
      obtain ⟨ls, h⟩ := ih.reg i
      exact ⟨ls, h.next (.pieces _ (convertR0_quiet ..)) rfl⟩
    exact ⟨hreg, jz hreg⟩

/-! ## Statements -/

/-- The labels of a statement; `b`: it is in a loop. -/
structure StmtOk (s : Stmt) (i i' : Info) (ls : List Lbl) : Prop where
  emit : Emit i i' ls fun x => To i.function ls x ∨ x = i.breaks.headD "" ∨ x = i.continues.headD ""
  closed : looped false s = true → Emit i i' ls (To i.function ls)
  nodup : ls.Nodup
  fresh : ∀ l ∈ ls, i.text.length ≤ l.num ∧ l.num < i'.text.length

theorem RegOk.stmt {e : Expr} {s : Stmt} {i j k : Info} {ls : List Lbl} (h : RegOk e i j ls) (hk : Emit j k [] (To i.function ls)) : StmtOk s i k ls :=
  ⟨(h.emit.next hk).weak fun _ => .inl, fun _ => h.emit.next hk, h.nodup, fun l hl => ⟨(h.fresh l hl).1, Nat.lt_of_lt_of_le (h.fresh l hl).2.1 hk.len⟩⟩

theorem Emit.freeAll (i : Info) (J : String → Prop) : Emit i (freeAll i) [] J := by
  unfold Mescc.freeAll
  generalize i.allocated = l
  induction l generalizing i with
  | nil => exact .refl i J
  | cons r l ih => exact (Emit.free i J).next (ih _)

/-- Only text and name matter. -/
theorem Emit.same {i j i' j' : Info} {ls : List Lbl} {J : String → Prop} (h : Emit i j ls J) (h1 : i'.text = i.text) (h2 : i'.function = i.function)
    (h3 : j'.text = j.text) (h4 : j'.function = j.function) : Emit i' j' ls J :=
  ⟨by rw [h1, h2, h3]; exact h.text, by rw [h4, h2]; exact h.function⟩


theorem StmtOk.seq {s t : Stmt} {i j k : Info} {ls ms : List Lbl} (h : StmtOk s i j ls) (h' : StmtOk t j k ms) (hb : j.breaks = i.breaks)
    (hc : j.continues = i.continues) : StmtOk (.seq s t) i k (ls ++ ms) := by
  have fj := h.emit.function
  have l1 := h.emit.len
  have l2 := h'.emit.len
  refine ⟨(h.emit.weak fun x => ?_).trans (h'.emit.weak fun x => ?_), fun hl => ?_, ?_, fun l hl => ?_⟩
  · exact Or.imp_left (To.mono fun l hl => by simp [hl])
  · rw [fj, hb, hc]
    exact Or.imp_left (To.mono fun l hl => by simp [hl])
  · have hl : (looped false s && looped false t) = true := hl
    rw [Bool.and_eq_true] at hl
    refine ((h.closed hl.1).weak fun x => To.mono fun l hl => by simp [hl]).trans ((h'.closed hl.2).weak fun x => ?_)
    rw [fj]
    exact To.mono fun l hl => by simp [hl]
  · refine List.nodup_append.2 ⟨h.nodup, h'.nodup, fun x hx y hy e => ?_⟩
    subst e
    have := (h.fresh x hx).2
    have := (h'.fresh x hy).1
    omega
  · rcases List.mem_append.1 hl with hl | hl
    · have := h.fresh l hl; omega
    · have := h'.fresh l hl; omega

theorem StmtOk.ifThen {c : Expr} {s : Stmt} {i j k o : Info} {la ls : List Lbl} {B : Lbl} (hl : leads c = false) (hB : B = ⟨i.text.length, .brk, []⟩)
    (h : TestOk c B i j la) (hb : j.breaks = i.breaks) (hc : j.continues = i.continues) (h' : StmtOk s j k ls)
    (ho : Emit k o [B] (To i.function (la ++ (ls ++ [B])))) : StmtOk (.ifThen c s) i o (la ++ (ls ++ [B])) := by
  have fj := h.emit.function
  have l1 := h.len
  have l2 := h'.emit.len
  have l3 := ho.len
  have nB : B.num = i.text.length := by rw [hB]
  have fa : ∀ x ∈ la, (i.text.length < x.num ∧ x.num < j.text.length) ∨ Added B i.text.length j.text.length x := fun x hx =>
    (h.fresh x hx).imp (fun p => ⟨p.2.2 hl, p.2.1⟩) id
  have e1 : Emit i j la (To i.function (la ++ (ls ++ [B]))) := h.emit.weak fun x => To.mono fun l hl => by
    rcases List.mem_cons.1 hl with rfl | hl <;> simp [*]
  refine ⟨(e1.weak fun _ => .inl).trans (Emit.trans (h'.emit.weak fun x => ?_) (ho.weak fun _ => .inl)), fun hl => ?_, ?_, fun l hl => ?_⟩
  · rw [fj, hb, hc]
    exact Or.imp_left (To.mono fun l hl => by simp [hl])
  · refine e1.trans (Emit.trans ((h'.closed hl).weak fun x => ?_) ho)
    rw [fj]
    exact To.mono fun l hl => by simp [hl]
  · refine List.nodup_append.2 ⟨h.nodup, List.nodup_append.2 ⟨h'.nodup, by simp, fun x hx y hy e => ?_⟩, fun x hx y hy e => ?_⟩
    · have := (h'.fresh x hx).1
      rw [e, List.mem_singleton.1 hy] at this; omega
    · subst e
      rcases List.mem_append.1 hy with hy | hy
      · have := (h'.fresh x hy).1
        rcases fa x hx with p | p
        · omega
        · have := p.1; omega
      · rcases fa x hx with p | p
        · rw [List.mem_singleton.1 hy] at p; omega
        · exact p.ne (List.mem_singleton.1 hy)
  · rcases List.mem_append.1 hl with hl | hl
    · rcases fa l hl with p | p
      · omega
      · have := p.1; omega
    · rcases List.mem_append.1 hl with hl | hl
      · have := h'.fresh l hl; omega
      · have : l.num = B.num := by rw [List.mem_singleton.1 hl]
        omega

theorem StmtOk.ifElse {c : Expr} {s t : Stmt} {i j k k1 o o1 : Info} {la ls lt : List Lbl} {E B : Lbl} (hl : leads c = false)
    (hE : E = ⟨i.text.length, .els, []⟩) (hB : B = ⟨i.text.length, .brk, []⟩)
    (h : TestOk c E i j la) (hb : j.breaks = i.breaks) (hc : j.continues = i.continues) (h' : StmtOk s j k ls)
    (hk : Emit k k1 [E] (To i.function (la ++ (ls ++ (E :: (lt ++ [B])))))) (hkb : k1.breaks = i.breaks) (hkc : k1.continues = i.continues)
    (h2 : StmtOk t k1 o lt) (ho : Emit o o1 [B] (To i.function (la ++ (ls ++ (E :: (lt ++ [B])))))) :
    StmtOk (.ifElse c s t) i o1 (la ++ (ls ++ (E :: (lt ++ [B])))) := by
  have fj := h.emit.function
  have fk1 := hk.function.trans (h'.emit.function.trans fj)
  have l1 := h.len
  have l2 := h'.emit.len
  have l3 := hk.len
  have l4 := h2.emit.len
  have l5 := ho.len
  have nE : E.num = i.text.length := by rw [hE]
  have nB : B.num = i.text.length := by rw [hB]
  have EB : E ≠ B := fun e => by rw [hE, hB] at e; cases e
  have aB : ∀ {x}, Added E i.text.length j.text.length x → x ≠ B := fun {x} p e => by
    have := p.2.1
    rw [e, hE, hB] at this
    cases this
  have fa : ∀ x ∈ la, (i.text.length < x.num ∧ x.num < j.text.length) ∨ Added E i.text.length j.text.length x := fun x hx =>
    (h.fresh x hx).imp (fun p => ⟨p.2.2 hl, p.2.1⟩) id
  clear hE hB
  have e1 : Emit i j la (To i.function (la ++ (ls ++ (E :: (lt ++ [B]))))) := h.emit.weak fun x => To.mono fun l hl => by
    rcases List.mem_cons.1 hl with rfl | hl <;> simp [*]
  refine ⟨(e1.weak fun _ => .inl).trans (Emit.trans (h'.emit.weak fun x => ?_) (Emit.trans (ls := [E]) (hk.weak fun _ => .inl)
    (Emit.trans (h2.emit.weak fun x => ?_) (ho.weak fun _ => .inl)))), fun hl => ?_, ?_, fun l hl => ?_⟩
  · rw [fj, hb, hc]
    exact Or.imp_left (To.mono fun l hl => by simp [hl])
  · rw [fk1, hkb, hkc]
    exact Or.imp_left (To.mono fun l hl => by simp [hl])
  · have hl : (looped false s && looped false t) = true := hl
    rw [Bool.and_eq_true] at hl
    refine e1.trans (Emit.trans ((h'.closed hl.1).weak fun x => ?_) (Emit.trans (ls := [E]) hk (Emit.trans ((h2.closed hl.2).weak fun x => ?_) ho)))
    · rw [fj]; exact To.mono fun l hl => by simp [hl]
    · rw [fk1]; exact To.mono fun l hl => by simp [hl]
  · refine List.nodup_append.2 ⟨h.nodup, List.nodup_append.2 ⟨h'.nodup, List.nodup_cons.2 ⟨fun hm => ?_, List.nodup_append.2 ⟨h2.nodup, by simp,
      fun x hx y hy e => ?_⟩⟩, fun x hx y hy e => ?_⟩, fun x hx y hy e => ?_⟩
    · rcases List.mem_append.1 hm with hm | hm
      · have := (h2.fresh E hm).1; omega
      · exact EB (List.mem_singleton.1 hm)
    · have := (h2.fresh x hx).1
      rw [e, List.mem_singleton.1 hy] at this; omega
    · have p := h'.fresh x hx
      rcases List.mem_cons.1 hy with hy | hy
      · rw [e, hy] at p; omega
      · rcases List.mem_append.1 hy with hy | hy
        · have := (h2.fresh y hy).1
          rw [e] at p; omega
        · rw [e, List.mem_singleton.1 hy] at p; omega
    · subst e
      have later : ∀ n, j.text.length ≤ n → x.num ≠ n := fun n hn e => by
        rcases fa x hx with p | p
        · omega
        · have := p.1; omega
      rcases List.mem_append.1 hy with hy | hy
      · exact later _ (h'.fresh x hy).1 rfl
      · rcases List.mem_cons.1 hy with hy | hy
        · rcases fa x hx with p | p
          · rw [hy] at p; omega
          · exact p.ne hy
        · rcases List.mem_append.1 hy with hy | hy
          · exact later _ (by have := (h2.fresh x hy).1; omega) rfl
          · rcases fa x hx with p | p
            · rw [List.mem_singleton.1 hy] at p; omega
            · exact aB p (List.mem_singleton.1 hy)
  · rcases List.mem_append.1 hl with hl | hl
    · rcases fa l hl with p | p
      · omega
      · have := p.1; omega
    · rcases List.mem_append.1 hl with hl | hl
      · have := h'.fresh l hl; omega
      · rcases List.mem_cons.1 hl with hl | hl
        · have : l.num = E.num := by rw [hl]
          omega
        · rcases List.mem_append.1 hl with hl | hl
          · have := h2.fresh l hl; omega
          · have : l.num = B.num := by rw [List.mem_singleton.1 hl]
            omega

/-- A loop: `u` is the statement. -/
theorem StmtOk.loop {c : Expr} {s u : Stmt} {i j k k1 o o1 : Info} {la ls : List Lbl} {P C B : Lbl}
    (hP : P = ⟨i.text.length, .loop, []⟩) (hC : C = ⟨i.text.length, .cont, []⟩) (hB : B = ⟨i.text.length, .brk, []⟩)
    (h : Emit i j [P] (To i.function (P :: (ls ++ (C :: (la ++ [B])))))) (lj : i.text.length < j.text.length)
    (hb : j.breaks.headD "" = B.str i.function) (hc : j.continues.headD "" = C.str i.function) (h' : StmtOk s j k ls)
    (hk : Emit k k1 [C] (To i.function (P :: (ls ++ (C :: (la ++ [B])))))) (h2 : TestOk c B k1 o la)
    (ho : Emit o o1 [B] (To i.function (P :: (ls ++ (C :: (la ++ [B])))))) : StmtOk u i o1 (P :: (ls ++ (C :: (la ++ [B])))) := by
  have fj := h.function
  have fk1 := hk.function.trans (h'.emit.function.trans fj)
  have l2 := h'.emit.len
  have l3 := hk.len
  have l4 := h2.len
  have l5 := ho.len
  have nP : P.num = i.text.length := by rw [hP]
  have nC : C.num = i.text.length := by rw [hC]
  have nB : B.num = i.text.length := by rw [hB]
  have PC : P ≠ C := fun e => by rw [hP, hC] at e; cases e
  have PB : P ≠ B := fun e => by rw [hP, hB] at e; cases e
  have CB : C ≠ B := fun e => by rw [hC, hB] at e; cases e
  have aP : ∀ {x}, Added B k1.text.length o.text.length x → x ≠ P := fun {x} p e => by
    have := p.2.1
    rw [e, hP, hB] at this
    cases this
  have aC : ∀ {x}, Added B k1.text.length o.text.length x → x ≠ C := fun {x} p e => by
    have := p.2.1
    rw [e, hC, hB] at this
    cases this
  have fa : ∀ x ∈ la, (k1.text.length ≤ x.num ∧ x.num < o.text.length) ∨ Added B k1.text.length o.text.length x := fun x hx =>
    (h2.fresh x hx).imp (fun p => ⟨p.1, p.2.1⟩) id
  clear hP hC hB
  have key : Emit i o1 (P :: (ls ++ (C :: (la ++ [B])))) (To i.function (P :: (ls ++ (C :: (la ++ [B]))))) := by
    refine Emit.trans (ls := [P]) h (Emit.trans (h'.emit.weak fun x => ?_) (Emit.trans (ls := [C]) hk (Emit.trans (h2.emit.weak fun x => ?_) ho)))
    · rw [fj, hb, hc]
      rintro (p | p | p)
      · exact To.mono (fun l hl => by simp [hl]) p
      · exact ⟨B, by simp, p⟩
      · exact ⟨C, by simp, p⟩
    · rw [fk1]
      exact To.mono fun l hl => by rcases List.mem_cons.1 hl with rfl | hl <;> simp [*]
  refine ⟨key.weak fun _ => .inl, fun _ => key, ?_, fun l hl => ?_⟩
  · refine List.nodup_cons.2 ⟨fun hm => ?_, List.nodup_append.2 ⟨h'.nodup, List.nodup_cons.2 ⟨fun hm => ?_, List.nodup_append.2 ⟨h2.nodup, by simp,
      fun x hx y hy e => ?_⟩⟩, fun x hx y hy e => ?_⟩⟩
    · rcases List.mem_append.1 hm with hm | hm
      · have := (h'.fresh P hm).1; omega
      · rcases List.mem_cons.1 hm with hm | hm
        · exact PC hm
        · rcases List.mem_append.1 hm with hm | hm
          · rcases fa P hm with p | p
            · omega
            · exact aP p rfl
          · exact PB (List.mem_singleton.1 hm)
    · rcases List.mem_append.1 hm with hm | hm
      · rcases fa C hm with p | p
        · omega
        · exact aC p rfl
      · exact CB (List.mem_singleton.1 hm)
    · subst e
      rcases fa x hx with p | p
      · rw [List.mem_singleton.1 hy] at p; omega
      · exact p.ne (List.mem_singleton.1 hy)
    · subst e
      have q := h'.fresh x hx
      rcases List.mem_cons.1 hy with hy | hy
      · rw [hy] at q; omega
      · rcases List.mem_append.1 hy with hy | hy
        · rcases fa x hy with p | p
          · omega
          · have := p.1; omega
        · rw [List.mem_singleton.1 hy] at q; omega
  · rcases List.mem_cons.1 hl with hl | hl
    · have : l.num = P.num := by rw [hl]
      omega
    · rcases List.mem_append.1 hl with hl | hl
      · have := h'.fresh l hl; omega
      · rcases List.mem_cons.1 hl with hl | hl
        · have : l.num = C.num := by rw [hl]
          omega
        · rcases List.mem_append.1 hl with hl | hl
          · rcases fa l hl with p | p
            · omega
            · have := p.1; omega
          · have : l.num = B.num := by rw [List.mem_singleton.1 hl]
            omega

/-- Other variables do not matter. -/
theorem StmtOk.same {s t : Stmt} {i i' : Info} {ls : List Lbl} (h : StmtOk s i i' ls) (hs : looped false t = looped false s)
    {L : List (String × Local)} {b c : List String} : StmtOk t i { i' with locals := L, breaks := b, continues := c } ls :=
  ⟨⟨h.emit.text, h.emit.function⟩, fun hl => ⟨(h.closed (hs ▸ hl)).text, (h.closed (hs ▸ hl)).function⟩, h.nodup, h.fresh⟩

theorem loop_labels {c : Expr} {s u : Stmt} {i j : Info} (hl : led c = true) (hs : ∀ i, ∃ ls, StmtOk s i (astToInfo s i) ls)
    {pre : List (List Line)} (t1 : j.text = i.text ++ pre ++ [[.label ((Lbl.mk i.text.length .loop []).str i.function)]]) (f1 : j.function = i.function)
    (b1 : j.breaks.headD "" = (Lbl.mk i.text.length .brk []).str i.function) (c1 : j.continues.headD "" = (Lbl.mk i.text.length .cont []).str i.function)
    (hp : pre = [] ∨ ∃ l : String, l = (Lbl.mk i.text.length .cont []).str i.function ∧ pre = [jump l])
    {L : List (String × Local)} {b d : List String} :
    ∃ ls, StmtOk u i { appendText (appendText ((compile c).test ((Lbl.mk i.text.length .brk []).str i.function) (appendText (astToInfo s j)
          [[.label ((Lbl.mk i.text.length .cont []).str i.function)]])) [jump ((Lbl.mk i.text.length .loop []).str i.function)])
          [[.label ((Lbl.mk i.text.length .brk []).str i.function)]] with locals := L, breaks := b, continues := d } ls := by
  obtain ⟨ls, h'⟩ := hs j
  have fk := h'.emit.function.trans f1
  have lj : i.text.length < j.text.length := by rw [t1, List.length_append, List.length_append]; show _ < _ + 1; omega
  have l1 := h'.emit.len
  revert h' fk l1
  generalize astToInfo s j = k
  intro h' fk l1
  obtain ⟨la, h⟩ := (compile_labels c hl).test (appendText k [[.label ((Lbl.mk i.text.length .cont []).str i.function)]]) ⟨i.text.length, .brk, []⟩
    (.inl (by show i.text.length < _; rw [append_len]; omega))
  rw [show (appendText k _).function = i.function from fk] at h
  have fo := h.emit.function.trans fk
  refine ⟨_, StmtOk.same (s := u) (StmtOk.loop rfl rfl rfl ?_ lj b1 c1 h' ?_ h ?_) rfl⟩
  · refine ⟨⟨pre ++ [[.label ((Lbl.mk i.text.length .loop []).str i.function)]], by rw [t1, List.append_assoc], ?_, fun x hx => ?_⟩, f1⟩
    · rcases hp with rfl | ⟨l, _, rfl⟩ <;> rfl
    · rcases hp with rfl | ⟨l, hl, rfl⟩
      · cases hx
      · have : x = l := by simpa [Mescc.jump, targets, jumpTarget] using hx
        exact ⟨⟨i.text.length, .cont, []⟩, by simp, this.trans hl⟩
  · exact Emit.label _ _ (by rw [fk])
  · exact Emit.trans (ls := []) (Emit.jump _ ⟨⟨i.text.length, .loop, []⟩, by simp, rfl⟩) (Emit.label _ _ (by rw [show (appendText _ _).function = i.function from fo]))

theorem ast_labels (s : Stmt) : ledS s = true → ∀ i, ∃ ls, StmtOk s i (astToInfo s i) ls := by
  induction s with
  | skip => exact fun _ i => ⟨[], .refl _ _, fun _ => .refl _ _, List.nodup_nil, fun l hl => (nomatch hl)⟩
  | expr e =>
    intro hl i
    obtain ⟨ls, h⟩ := (compile_labels e hl).reg i
    have h1 : StmtOk (.expr e) i (freeRegister (exprToRegister e i)) ls := h.stmt (.free _ _)
    have h2 : StmtOk (.expr e) i (freeAll (appendText (exprToRegister e i) [rZero (exprToRegister e i)])) ls :=
      h.stmt (Emit.next (.piece _ (ls := rZero _) rfl) (.freeAll _ _))
    refine ⟨ls, ?_⟩
    revert h1 h2
    cases e <;> exact fun h1 h2 => by first | exact h1 | exact h2
  | assign x e =>
    intro hl i
    obtain ⟨ls, h⟩ := (compile_labels e hl).reg i
    exact ⟨ls, h.stmt (Emit.next (.pieces _ (rToIdent_quiet ..)) (Emit.next (.piece _ (ls := rZero _) rfl) (.freeAll _ _)))⟩
  | decl t x e =>
    intro hl i
    cases e with
    | none => exact ⟨[], ⟨⟨[], by simp [astToInfo], rfl, fun x hx => (nomatch hx)⟩, rfl⟩, fun _ => ⟨⟨[], by simp [astToInfo], rfl, fun x hx => (nomatch hx)⟩, rfl⟩,
        List.nodup_nil, fun l hl => (nomatch hl)⟩
    | some e =>
      obtain ⟨ls, h⟩ := (compile_labels e hl).reg { i with locals := (x, ⟨t, newId i.locals⟩) :: i.locals }
      have := h.stmt (s := .decl t x (some e)) (Emit.next (.pieces _ (rToLocalNText_quiet ((compile e).reg { i with locals := (x, ⟨t, newId i.locals⟩) :: i.locals }) ⟨t, newId i.locals⟩ 0)) (.free _ _))
      exact ⟨ls, ⟨this.emit.text, this.emit.function⟩, fun q => ⟨(this.closed q).text, (this.closed q).function⟩, this.nodup, this.fresh⟩
  | seq s t ihs iht =>
    intro hl i
    have hl : (ledS s && ledS t) = true := hl
    rw [Bool.and_eq_true] at hl
    obtain ⟨ls, h⟩ := ihs hl.1 i
    obtain ⟨ms, h'⟩ := iht hl.2 (astToInfo s i)
    exact ⟨ls ++ ms, h.seq h' (ast_grows s i).breaks (ast_grows s i).continues⟩
  | block s ih =>
    intro hl i
    obtain ⟨ls, h⟩ := ih hl i
    exact ⟨ls, StmtOk.same (t := .block s) (L := i.locals) (b := (astToInfo s i).breaks) (c := (astToInfo s i).continues) h rfl⟩
  | ifThen c s ih =>
    intro hl i
    have hl : (!leads c && led c && ledS s) = true := hl
    simp only [Bool.and_eq_true, Bool.not_eq_true'] at hl
    have heq : astToInfo (.ifThen c s) i = { appendText (appendText (astToInfo s ((compile c).test ((Lbl.mk i.text.length .brk []).str i.function) i))
        [jump ((Lbl.mk i.text.length .brk []).str i.function)]) [[.label ((Lbl.mk i.text.length .brk []).str i.function)]] with locals := i.locals } := by
      rw [Lbl.str_nil]; rfl
    rw [heq]
    obtain ⟨la, h⟩ := (compile_labels c hl.1.2).test i ⟨i.text.length, .brk, []⟩ (.inr ⟨rfl, hl.1.1⟩)
    have g := ((compile_grows c).test ((Lbl.mk i.text.length .brk []).str i.function) i 0).ext
    revert h g
    generalize (compile c).test ((Lbl.mk i.text.length .brk []).str i.function) i = j
    intro h g
    obtain ⟨ls, h'⟩ := ih hl.2 j
    have fk := h'.emit.function.trans g.function
    refine ⟨_, StmtOk.same (StmtOk.ifThen hl.1.1 rfl h g.breaks g.continues h' ?_) rfl⟩
    exact Emit.trans (ls := []) (Emit.jump _ ⟨_, by simp, rfl⟩) (Emit.label _ _ (by rw [show (appendText _ _).function = i.function from fk]))
  | ifElse c s t ihs iht =>
    intro hl i
    have hl : (!leads c && led c && ledS s && ledS t) = true := hl
    simp only [Bool.and_eq_true, Bool.not_eq_true'] at hl
    have heq : astToInfo (.ifElse c s t) i = { appendText (astToInfo t (appendText (appendText (astToInfo s ((compile c).test ((Lbl.mk i.text.length .els []).str i.function) i))
        [jump ((Lbl.mk i.text.length .brk []).str i.function)]) [[.label ((Lbl.mk i.text.length .els []).str i.function)]]))
        [[.label ((Lbl.mk i.text.length .brk []).str i.function)]] with locals := i.locals } := by
      rw [Lbl.str_nil, Lbl.str_nil]; rfl
    rw [heq]
    obtain ⟨la, h⟩ := (compile_labels c hl.1.1.2).test i ⟨i.text.length, .els, []⟩ (.inr ⟨rfl, hl.1.1.1⟩)
    have g := ((compile_grows c).test ((Lbl.mk i.text.length .els []).str i.function) i 0).ext
    revert h g
    generalize (compile c).test ((Lbl.mk i.text.length .els []).str i.function) i = j
    intro h g
    obtain ⟨ls, h'⟩ := ihs hl.1.2 j
    have fk := h'.emit.function.trans g.function
    have gs := ast_grows s j
    revert h' fk gs
    generalize astToInfo s j = k
    intro h' fk gs
    obtain ⟨lt, h2⟩ := iht hl.2 (appendText (appendText k [jump ((Lbl.mk i.text.length .brk []).str i.function)]) [[.label ((Lbl.mk i.text.length .els []).str i.function)]])
    have fo := h2.emit.function.trans fk
    refine ⟨_, StmtOk.same (StmtOk.ifElse (k1 := appendText (appendText k [jump ((Lbl.mk i.text.length .brk []).str i.function)]) [[.label ((Lbl.mk i.text.length .els []).str i.function)]]) hl.1.1.1 rfl rfl h g.breaks g.continues h' ?_ (gs.breaks.trans g.breaks) (gs.continues.trans g.continues) h2 ?_) rfl⟩
    · exact Emit.trans (ls := []) (Emit.jump _ ⟨⟨i.text.length, .brk, []⟩, by simp, rfl⟩) (Emit.label _ _ (by rw [show (appendText _ _).function = i.function from fk]))
    · exact Emit.label _ _ (by rw [fo])
  | «while» c s ih =>
    intro hl i
    have hl : (led c && ledS s) = true := hl
    rw [Bool.and_eq_true] at hl
    have heq : ∃ j, j.text = i.text ++ [jump ((Lbl.mk i.text.length .cont []).str i.function)] ++ [[.label ((Lbl.mk i.text.length .loop []).str i.function)]] ∧
        j.function = i.function ∧ j.breaks.headD "" = (Lbl.mk i.text.length .brk []).str i.function ∧
        j.continues.headD "" = (Lbl.mk i.text.length .cont []).str i.function ∧ ∃ L b d,
        astToInfo (.while c s) i = { appendText (appendText ((compile c).test ((Lbl.mk i.text.length .brk []).str i.function) (appendText (astToInfo s j)
          [[.label ((Lbl.mk i.text.length .cont []).str i.function)]])) [jump ((Lbl.mk i.text.length .loop []).str i.function)])
          [[.label ((Lbl.mk i.text.length .brk []).str i.function)]] with locals := L, breaks := b, continues := d } := by
      rw [Lbl.str_nil, Lbl.str_nil, Lbl.str_nil]
      exact ⟨appendText { appendText i [jump ("_" ++ i.function ++ "_" ++ numberString i.text.length ++ "_" ++ "continue")] with
        breaks := ("_" ++ i.function ++ "_" ++ numberString i.text.length ++ "_" ++ "break") :: i.breaks,
        continues := ("_" ++ i.function ++ "_" ++ numberString i.text.length ++ "_" ++ "continue") :: i.continues }
        [[.label ("_" ++ i.function ++ "_" ++ numberString i.text.length ++ "_" ++ "loop")]], rfl, rfl, rfl, rfl, _, _, _, rfl⟩
    obtain ⟨j, t1, f1, b1, c1, L, b, d, heq⟩ := heq
    rw [heq]
    exact loop_labels hl.1 (ih hl.2) t1 f1 b1 c1 (.inr ⟨_, rfl, rfl⟩)
  | doWhile s c ih =>
    intro hl i
    have hl : (led c && ledS s) = true := hl
    rw [Bool.and_eq_true] at hl
    have heq : ∃ j, j.text = i.text ++ [] ++ [[.label ((Lbl.mk i.text.length .loop []).str i.function)]] ∧
        j.function = i.function ∧ j.breaks.headD "" = (Lbl.mk i.text.length .brk []).str i.function ∧
        j.continues.headD "" = (Lbl.mk i.text.length .cont []).str i.function ∧ ∃ L b d,
        astToInfo (.doWhile s c) i = { appendText (appendText ((compile c).test ((Lbl.mk i.text.length .brk []).str i.function) (appendText (astToInfo s j)
          [[.label ((Lbl.mk i.text.length .cont []).str i.function)]])) [jump ((Lbl.mk i.text.length .loop []).str i.function)])
          [[.label ((Lbl.mk i.text.length .brk []).str i.function)]] with locals := L, breaks := b, continues := d } := by
      rw [Lbl.str_nil, Lbl.str_nil, Lbl.str_nil]
      refine ⟨appendText { i with
        breaks := ("_" ++ i.function ++ "_" ++ numberString i.text.length ++ "_" ++ "break") :: i.breaks,
        continues := ("_" ++ i.function ++ "_" ++ numberString i.text.length ++ "_" ++ "continue") :: i.continues }
        [[.label ("_" ++ i.function ++ "_" ++ numberString i.text.length ++ "_" ++ "loop")]], ?_, rfl, rfl, rfl, _, _, _, rfl⟩
      rw [List.append_nil]; rfl
    obtain ⟨j, t1, f1, b1, c1, L, b, d, heq⟩ := heq
    rw [heq]
    exact loop_labels hl.1 (ih hl.2) t1 f1 b1 c1 (.inl rfl)
  | brk =>
    intro _ i
    exact ⟨[], Emit.jump i (.inr (.inl rfl)), fun h => (nomatch h), List.nodup_nil, fun l hl => (nomatch hl)⟩
  | cont =>
    intro _ i
    exact ⟨[], Emit.jump i (.inr (.inr rfl)), fun h => (nomatch h), List.nodup_nil, fun l hl => (nomatch hl)⟩
  | ret e =>
    intro hl i
    obtain ⟨ls, h⟩ := (compile_labels e hl).reg (freeAll i)
    have f0 := (Emit.freeAll i fun _ => True).function
    have l0 := (Emit.freeAll i fun _ => True).len
    have key : Emit i (astToInfo (.ret e) i) ls (To i.function ls) := by
      have := Emit.trans (Emit.freeAll i (To i.function ls)) ((h.emit.weak fun x hx => by rw [f0] at hx; exact hx).next
        (Emit.next (.free _ _) (.piece _ (ls := Mescc.ret) rfl)))
      exact this
    refine ⟨ls, key.weak fun _ => .inl, fun _ => key, h.nodup, fun l hl => ?_⟩
    have p := h.fresh l hl
    have l1 := (Emit.next (Emit.free ((compile e).reg (freeAll i)) fun _ => True) (.piece _ (ls := Mescc.ret) rfl)).len
    exact ⟨Nat.le_trans l0 p.1, Nat.lt_of_lt_of_le p.2.1 l1⟩

end Mes.X86
