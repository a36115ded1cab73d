import Verif.Proof.MesccExt

/-
The code of an expression computes its value.
-/
namespace Mes.X86
open Mes.Mescc Mes.CLang

/-! ## Variables -/

/-- The variables of the compiler are those of the program, and their words hold their values. -/
def Vars (X : Frame) (V : Nat → Word) : List (String × Local) → Store → Prop
  | [], [] => True
  | (x, l) :: ls, (y, t, o) :: ρ =>
    (x = y ∧ l.type = t ∧ t.Ok ∧ 0 ≤ ((X.room + X.locals : Nat) : Int) - l.id ∧ X.room ≤ slot X l.id ∧ slot X l.id < X.words ∧
      ∀ v, o = some v → conv t (V (slot X l.id)) = BitVec.ofInt 32 v ∧ Bounded v) ∧ Vars X V ls ρ
  | _, _ => False

theorem vars_find {X : Frame} {V : Nat → Word} {x : String} {t : Ty} {v : Int} : ∀ {L : List (String × Local)} {ρ : Store}, Vars X V L ρ →
    ρ.find x = some (t, some v) → ∃ l, L.lookup x = some l ∧ l.type = t ∧ 0 ≤ ((X.room + X.locals : Nat) : Int) - l.id ∧
      X.room ≤ slot X l.id ∧ slot X l.id < X.words ∧ conv t (V (slot X l.id)) = BitVec.ofInt 32 v ∧ Bounded v
  | [], [], _, h => by simp [Store.find] at h
  | [], _ :: _, h, _ => h.elim
  | _ :: _, [], h, _ => h.elim
  | (y, l) :: L, (z, u, o) :: ρ, h, hf => by
    obtain ⟨⟨rfl, rfl, h1, h2, h3, h4, h5⟩, hs⟩ := h
    by_cases hx : y = x
    · subst hx
      simp [Store.find] at hf
      obtain ⟨rfl, rfl⟩ := hf
      exact ⟨l, by simp, rfl, h2, h3, h4, h5 v rfl⟩
    · have hf' : Store.find ρ x = some (t, some v) := by
        rw [← hf]; simp [Store.find, hx]
      obtain ⟨l', g1, g2⟩ := vars_find hs hf'
      refine ⟨l', ?_, g2⟩
      rw [List.lookup_cons]
      have : (x == y) = false := by simp; exact fun h => hx h.symm
      rw [this]; exact g1

theorem vars_types {X : Frame} {V : Nat → Word} {x : String} : ∀ {L : List (String × Local)} {ρ : Store}, Vars X V L ρ →
    (L.lookup x).map (·.type) = (ρ.find x).map (·.1)
  | [], [], _ => rfl
  | [], _ :: _, h => h.elim
  | _ :: _, [], h => h.elim
  | (y, l) :: L, (z, u, o) :: ρ, h => by
    obtain ⟨⟨rfl, rfl, -⟩, hs⟩ := h
    by_cases hx : y = x
    · subst hx; simp [Store.find]
    · have hf' : Store.find ((y, l.type, o) :: ρ) x = Store.find ρ x := by simp [Store.find, hx]
      rw [hf', ← vars_types hs, List.lookup_cons]
      have : (x == y) = false := by simp; exact fun h => hx h.symm
      rw [this]

theorem astType_eq {X : Frame} {V : Nat → Word} {L : List (String × Local)} {ρ : Store} (h : Vars X V L ρ) (e : Expr) :
    astType L e = leftType ρ e := by
  induction e with
  | fixed c => rfl
  | chr c => rfl
  | ident x => show ((L.lookup x).map (·.type)).getD _ = _; rw [vars_types h]; rfl
  | un op a ih => exact ih
  | bin op a b iha ihb => exact iha
  | land a b iha ihb => exact iha
  | lor a b iha ihb => exact iha
  | cond a b c iha ihb ihc => exact ihb
  | cast t a ih => rfl

theorem tmod_bounded {x y : Int} (h : Bounded x) : Bounded (x.tmod y) := by
  unfold Bounded at *
  have h1 : (x.tmod y).natAbs ≤ x.natAbs := by rw [Int.natAbs_tmod]; exact Nat.mod_le _ _
  by_cases hx : 0 ≤ x
  · have := Int.tmod_nonneg y hx; omega
  · omega

theorem binop_bounded {op : Binop} {t : Ty} {x y v : Int} (hx : Bounded x) (h : binop op t x y = some v) : Bounded v := by
  cases op <;> simp only [binop] at h
  case add => exact arith_bounded h
  case sub => exact arith_bounded h
  case mul => exact arith_bounded h
  case div => split at h; · cases h
              · exact arith_bounded h
  case mod =>
    split at h
    · cases h
    · cases hq : arith t (x.tdiv y) with
      | none => rw [hq] at h; cases h
      | some q => rw [hq] at h; cases h; exact tmod_bounded hx
  case shl => cases h
  case shr => cases h
  all_goals (cases h; first | exact ofBits_bounded _ _ | exact truth_bounded _)

theorem shift_bounded {left : Bool} {t : Ty} {x n v : Int} (hx : Bounded x) (h : shift left t x n = some v) : Bounded v := by
  unfold shift at h
  split at h
  · cases h
  · split at h
    · cases h
    · split at h
      · exact arith_bounded h
      · cases h
        unfold Bounded at *
        have h0 : 0 ≤ x := by omega
        have h1 := Int.ediv_nonneg h0 (b := 2 ^ n.toNat) (Int.pow_nonneg (by omega))
        have h2 := Int.ediv_le_self (2 ^ n.toNat) h0
        omega

theorem eval_bounded {X : Frame} {V : Nat → Word} {L : List (String × Local)} {ρ : Store} (h : Vars X V L ρ) (e : Expr) :
    ∀ {b n v}, Fits ρ b n e → eval ρ e = some v → Bounded v := by
  induction e with
  | fixed c =>
    intro b n v _ hv
    simp only [eval, Option.map_eq_some_iff] at hv
    obtain ⟨t, ht, rfl⟩ := hv
    unfold Const.ty at ht
    unfold Bounded
    split at ht <;> (repeat' split at ht) <;> first | omega | cases ht
  | chr c =>
    intro b n v _ hv
    simp only [eval] at hv
    split at hv
    · cases hv; unfold Bounded; omega
    · cases hv
  | ident x =>
    intro b n v _ hv
    simp only [eval, Option.bind_eq_some_iff] at hv
    obtain ⟨⟨t, o⟩, hf, ho⟩ := hv
    simp only at ho
    subst ho
    obtain ⟨l, -, -, -, -, -, -, hb⟩ := vars_find h hf
    exact hb
  | un op a ih =>
    intro b n v hf hv
    simp only [eval, Option.bind_eq_bind, Option.bind_eq_some_iff] at hv
    obtain ⟨t, ht, x, hx, hv⟩ := hv
    have hf' : Fits ρ false n a := by cases b <;> exact hf
    cases op with
    | neg => exact arith_bounded hv
    | pos => cases hv; exact ih hf' hx
    | bitNot => cases hv; exact ofBits_bounded _ _
    | not => cases hv; exact truth_bounded _
  | bin op a b iha ihb =>
    intro bb n v hf hv
    simp only [eval, Option.bind_eq_bind, Option.bind_eq_some_iff] at hv
    obtain ⟨t, ht, u, hu, x, hx, y, hy, hv⟩ := hv
    have hf' : Fits ρ false n a := by cases bb <;> exact hf.1
    split at hv
    · exact shift_bounded (iha hf' hx) hv
    · exact binop_bounded (wrap_bounded (common_ok t u) x) hv
  | land a b iha ihb =>
    intro bb n v hf hv
    simp only [eval, Option.bind_eq_bind, Option.bind_eq_some_iff] at hv
    obtain ⟨x, hx, hv⟩ := hv
    split at hv
    · cases hv; exact ⟨by decide, by decide⟩
    · obtain ⟨y, hy, hv⟩ := Option.bind_eq_some_iff.1 hv
      cases hv; exact truth_bounded _
  | lor a b iha ihb =>
    intro bb n v hf hv
    simp only [eval, Option.bind_eq_bind, Option.bind_eq_some_iff] at hv
    obtain ⟨x, hx, hv⟩ := hv
    split at hv
    · cases hv; exact ⟨by decide, by decide⟩
    · obtain ⟨y, hy, hv⟩ := Option.bind_eq_some_iff.1 hv
      cases hv; exact truth_bounded _
  | cond a b c iha ihb ihc =>
    intro bb n v hf hv
    simp only [eval, Option.bind_eq_bind, Option.bind_eq_some_iff] at hv
    obtain ⟨t, ht, u, hu, x, hx, y, hy, hv⟩ := hv
    cases hv; exact wrap_bounded (common_ok t u) y
  | cast t a ih =>
    intro bb n v hf hv
    simp only [eval, Option.bind_eq_bind, Option.bind_eq_some_iff] at hv
    obtain ⟨x, hx, hv⟩ := hv
    cases hv
    have : t.Ok := by cases bb <;> exact hf.1
    exact wrap_bounded this x

/-! ## Jumps -/

section
variable {X : Frame} {V : Nat → Word} {T : List (List Line)} {base : Word} {i : Info} {d d' : List Word} {m : Mach} {Q : Flags → Prop}

/-- The machine jumps to a label, with these values. -/
def Jumps (X : Frame) (V : Nat → Word) (m : Mach) (l : String) (d : List Word) : Prop :=
  ∃ m', Steps m m' ∧ m'.eip = X.env l ∧ St X V d m'

theorem Reach.text {i' : Info} (h : Reach X V base m i d Q) (ht : i'.text = i.text) : Reach X V base m i' d Q := by
  obtain ⟨m', h1, h2, h3, h4⟩ := h
  exact ⟨m', h1, by rw [h2]; unfold pos; rw [ht], h3, h4⟩

theorem Reach.jmp (hT : CodeAt X base T.flatten) {l : String} (h : Reach X V base m i d Q) (hp : (appendText i [jump l]).text <+: T) :
    Jumps X V m l d := by
  obtain ⟨m', h1, h2, h3, h4⟩ := h
  obtain ⟨m'', g1, g2, g3, g4, -⟩ := i_jmp (here_of hT hp h2 h3.prot)
  exact ⟨m'', h1.trans g1, g2, h3.same g4 g3⟩

theorem Reach.je (hT : CodeAt X base T.flatten) {l : String} (h : Reach X V base m i d Q) (hp : (appendText i [jumpZ l]).text <+: T)
    (hz : ∀ f, Q f → f.zf = true) : Jumps X V m l d := by
  obtain ⟨m', h1, h2, h3, h4⟩ := h
  obtain ⟨m'', g1, g2, g3, g4, -⟩ := i_je_taken (here_of hT hp h2 h3.prot) (hz _ h4)
  exact ⟨m'', h1.trans g1, g2, h3.same g4 g3⟩

theorem Reach.je_not (hT : CodeAt X base T.flatten) {l : String} (h : Reach X V base m i d Q) (hp : (appendText i [jumpZ l]).text <+: T)
    (hz : ∀ f, Q f → f.zf = false) : Reach X V base m (appendText i [jumpZ l]) d Q := by
  obtain ⟨m', h1, h2, h3, h4⟩ := h
  obtain ⟨m'', g1, g3, g4, g5⟩ := i_je_not (here_of hT hp h2 h3.prot) (hz _ h4)
  exact ⟨m'', h1.trans g1.steps, by rw [g1.eip, h2, pos_append]; rfl, h3.same g4 g3, by rw [g5]; exact h4⟩

theorem Reach.jne (hT : CodeAt X base T.flatten) {l : String} (h : Reach X V base m i d Q) (hp : (appendText i [jumpNz l]).text <+: T)
    (hz : ∀ f, Q f → f.zf = false) : Jumps X V m l d := by
  obtain ⟨m', h1, h2, h3, h4⟩ := h
  obtain ⟨m'', g1, g2, g3, g4, -⟩ := i_jne_taken (here_of hT hp h2 h3.prot) (hz _ h4)
  exact ⟨m'', h1.trans g1, g2, h3.same g4 g3⟩

theorem Reach.jne_not (hT : CodeAt X base T.flatten) {l : String} (h : Reach X V base m i d Q) (hp : (appendText i [jumpNz l]).text <+: T)
    (hz : ∀ f, Q f → f.zf = true) : Reach X V base m (appendText i [jumpNz l]) d Q := by
  obtain ⟨m', h1, h2, h3, h4⟩ := h
  obtain ⟨m'', g1, g3, g4, g5⟩ := i_jne_not (here_of hT hp h2 h3.prot) (hz _ h4)
  exact ⟨m'', h1.trans g1.steps, by rw [g1.eip, h2, pos_append]; rfl, h3.same g4 g3, by rw [g5]; exact h4⟩

theorem Jumps.label (hT : CodeAt X base T.flatten) {l : String} (h : Jumps X V m l d) (hp : (appendText i [[.label l]]).text <+: T) :
    Reach X V base m (appendText i [[.label l]]) d (fun _ => True) := by
  obtain ⟨m', h1, h2, h3⟩ := h
  refine ⟨m', h1, ?_, h3, trivial⟩
  rw [h2, label_pos hT hp, pos_append]
  show pos base i = pos base i + 0#32
  simp

theorem Reach.label {l : String} (h : Reach X V base m i d Q) : Reach X V base m (appendText i [[.label l]]) d Q := by
  obtain ⟨m', h1, h2, h3, h4⟩ := h
  refine ⟨m', h1, ?_, h3, h4⟩
  rw [h2, pos_append]
  show pos base i = pos base i + 0#32
  simp

theorem Reach.comment (h : Reach X V base m i d Q) : Reach X V base m (appendText i [[.comment]]) d Q := by
  obtain ⟨m', h1, h2, h3, h4⟩ := h
  refine ⟨m', h1, ?_, h3, h4⟩
  rw [h2, pos_append]
  show pos base i = pos base i + 0#32
  simp

theorem St.drop {v : Word} (h : St X V (v :: d) m) (hd : d.length ≤ 1) : St X V d m := by
  match d, hd, h with
  | [], _, h => exact h.regs rfl rfl rfl rfl (by simp) trivial
  | [w], _, h => exact h.regs rfl rfl rfl rfl (by simp) h.top.2

theorem Jumps.drop {v : Word} {l : String} (h : Jumps X V m l (v :: d)) (hd : d.length ≤ 1) : Jumps X V m l d := by
  obtain ⟨m', h1, h2, h3⟩ := h
  exact ⟨m', h1, h2, h3.drop hd⟩

theorem free_same {n : Nat} (hr : Regs i (n + 1)) (hn : n ≤ 1) : (freeRegister i).text = i.text := by
  unfold freeRegister
  rw [if_pos (by rw [hr.pushed]; omega)]

theorem alloc_same {n : Nat} (hr : Regs i n) (hn : n ≤ 1) : (allocateRegister i).text = i.text := by
  have ha := hr.allocated
  unfold allocateRegister
  rw [if_pos]
  rw [ha]
  have : n = 0 ∨ n = 1 := by omega
  rcases this with rfl | rfl <;> decide

theorem Reach.cc (hT : CodeAt X base T.flatten) {v : Word} {set : String} {c : CC} (hc : SetName set c) {f0 : Bool}
    (h : Reach X V base m i (v :: d) (fun f => CC.holds f c = f0)) (hr : Regs i (d.length + 1))
    (hp : (appendText i [ccToR set i]).text <+: T) :
    Reach X V base m (appendText i [ccToR set i]) ((if f0 then 1 else 0) :: d) (fun f => CC.holds f c = f0) := by
  obtain ⟨m', h1, h2, h3, h4⟩ := h
  obtain ⟨m'', g1, g2, g3, g4⟩ := ccToR_run hc hr m' h3 (here_of hT hp h2 h3.prot)
  rw [h4] at g3
  exact ⟨m'', h1.trans g1, by rw [g2, h2, pos_append], g3, by rw [g4]; exact h4⟩

end

/-! ## Code that computes a value -/

section
variable (X : Frame) (V : Nat → Word) (T : List (List Line)) (base : Word) (L : List (String × Local))

/-- The code computes a value, when `n` values are alive and the stack has room for `need` more. -/
def Eok (reg : Info → Info) (n need : Nat) (w : Word) (Q : Flags → Prop) : Prop :=
  ∀ (i : Info) (d : List Word) (m : Mach) (Q0 : Flags → Prop), d.length = n → Regs i n → i.locals = L → n + need ≤ X.room + 2 →
    (reg i).text <+: T → Reach X V base m i d Q0 → Reach X V base m (reg i) (w :: d) Q

/-- The code goes on if the value is not zero, and jumps to the label if it is. -/
def Tok (test : Info → Info) (n need : Nat) (l : String) (v : Int) : Prop :=
  ∀ (i : Info) (d : List Word) (m : Mach) (Q0 : Flags → Prop), d.length = n → Regs i n → i.locals = L → n + need ≤ X.room + 2 →
    (test i).text <+: T → Reach X V base m i d Q0 →
    (v ≠ 0 → Reach X V base m (test i) d (fun _ => True)) ∧ (v = 0 → Jumps X V m l d)

end

section
variable {X : Frame} {V : Nat → Word} {T : List (List Line)} {base : Word} {L : List (String × Local)}

theorem Eok.weak {reg : Info → Info} {n need : Nat} {w : Word} {Q R : Flags → Prop} (h : Eok X V T base L reg n need w Q)
    (hq : ∀ f, Q f → R f) : Eok X V T base L reg n need w R := fun i d m Q0 h1 h2 h3 h4 h5 h6 => (h i d m Q0 h1 h2 h3 h4 h5 h6).weak hq

theorem Eok.more {reg : Info → Info} {n need need' : Nat} {w : Word} {Q : Flags → Prop} (h : Eok X V T base L reg n need w Q)
    (hn : need ≤ need') : Eok X V T base L reg n need' w Q := fun i d m Q0 h1 h2 h3 h4 h5 h6 => h i d m Q0 h1 h2 h3 (by omega) h5 h6

/-- One more piece of text on the last value. -/
theorem Eok.then (hT : CodeAt X base T.flatten) {reg : Info → Info} {n need : Nat} {w w' : Word} {Q R : Flags → Prop} {P : Flags → Flags → Prop}
    {op : Info → List Line} (h : Eok X V T base L reg n need w Q) (hg : ∀ i n, Grows i n (reg i) (n + 1))
    (hop : ∀ i (d : List Word), Regs i (d.length + 1) → RunL X V (op i) (w :: d) (w' :: d) P) (hq : ∀ f f', Q f → P f f' → R f') :
    Eok X V T base L (fun i => appendText (reg i) [op (reg i)]) n need w' R := fun i d m Q0 h1 h2 h3 h4 h5 h6 => by
  subst h1
  exact (h i d m Q0 rfl h2 h3 h4 ((prefix_append _).trans h5) h6).run hT (hop _ d ((hg i _).regs h2)) h5 hq

theorem binop_ok (hT : CodeAt X base T.flatten) {a b : Code} {op : Info → List Line} {n na nb : Nat} {x y y' r : Word} {Qa Qb Q : Flags → Prop}
    {P : Flags → Flags → Prop} (ga : CodeGrows a) (gb : CodeGrows b) (ha : Eok X V T base L a.reg n na x Qa)
    (hb : Eok X V T base L b.reg (n + 1) nb y Qb)
    (hop : ∀ i (ds : List Word), Regs i (ds.length + 2) → RunL X V (op i) (y :: x :: ds) (y' :: r :: ds) P) (hq : ∀ f f', P f f' → Q f') :
    Eok X V T base L (binopToR a b op) n (max na (nb + 1)) r Q := by
  intro i d m Q0 h1 h2 h3 h4 h5 h6
  subst h1
  have e1 : (appendText (b.reg (a.reg i)) [op (b.reg (a.reg i))]).text <+: T := free_text.trans h5
  have e2 := (prefix_append _).trans e1
  have e3 := (gb.reg (a.reg i) 0).ext.text.trans e2
  have r1 := (ga.reg i _).regs h2
  have r2 := (gb.reg (a.reg i) _).regs r1
  have s1 := ha i d m Q0 rfl h2 h3 (by omega) e3 h6
  have s2 := hb (a.reg i) (x :: d) m _ rfl r1 ((ga.reg i 0).ext.locals.trans h3) (by omega) e2 s1
  have s3 := s2.run hT (hop _ d r2) e1 (R := Q) (fun f f' _ h => hq f f' h)
  exact s3.free hT (r2.append _) h5

theorem jump_ok (hT : CodeAt X base T.flatten) {reg : Info → Info} {n need : Nat} {v : Int} {Q : Flags → Prop} (l : String)
    (hg : ∀ i n, Grows i n (reg i) (n + 1)) (h : Eok X V T base L reg n need (BitVec.ofInt 32 v) Q) (hn : n ≤ 1) (hv : Bounded v) :
    Tok X V T base L (jumpWith reg jumpZ (some rZero) l) n need l v := by
  intro i d m Q0 h1 h2 h3 h4 h5 h6
  subst h1
  have e1 : (appendText (appendText (reg i) [[.comment]]) ([rZero (reg i)] ++ [jumpZ l])).text <+: T := free_text.trans h5
  have e0 : appendText (appendText (reg i) [[.comment]]) ([rZero (reg i)] ++ [jumpZ l]) =
      appendText (appendText (appendText (reg i) [[.comment]]) [rZero (reg i)]) [jumpZ l] := by simp [appendText]
  rw [e0] at e1
  have e2 := (prefix_append _).trans e1
  have e3 := (prefix_append _).trans e2
  have e4 := (prefix_append _).trans e3
  have r1 := (hg i _).regs h2
  have s1 := (h i d m Q0 rfl h2 h3 h4 e4 h6).comment
  have s2 := s1.run hT (rZero_run (i := reg i) r1) e2 (R := fun f => f.zf = decide (BitVec.ofInt 32 v = 0)) (fun f f' _ h => h)
  constructor
  · intro h0
    have s3 := s2.je_not hT e1 (fun f hf => by rw [hf]; exact decide_eq_false (fun h => h0 ((zero_iff hv).1 h)))
    show Reach X V base m (freeRegister (appendText (appendText (reg i) [[.comment]]) ([rZero (reg i)] ++ [jumpZ l]))) d _
    rw [e0]
    have h5' : (freeRegister (appendText (appendText (reg i) [[.comment]]) ([rZero (reg i)] ++ [jumpZ l]))).text <+: T := h5
    rw [e0] at h5'
    exact (s3.free hT (((r1.append _).append _).append _) h5').weak fun _ _ => trivial
  · intro h0
    subst h0
    exact (s2.je hT e1 (fun f hf => by rw [hf]; rfl)).drop hn

theorem jump_flag (hT : CodeAt X base T.flatten) {reg : Info → Info} {n need : Nat} {v : Int} {Q : Flags → Prop} {type : String → List Line}
    (l : String) (hg : ∀ i n, Grows i n (reg i) (n + 1)) (h : Eok X V T base L reg n need (BitVec.ofInt 32 v) Q) (hn : n ≤ 1)
    (hq : (type = jumpZ ∧ ∀ f, Q f → f.zf = decide (v = 0)) ∨ (type = jumpNz ∧ ∀ f, Q f → f.zf = decide (v ≠ 0))) :
    Tok X V T base L (jumpWith reg type none l) n need l v := by
  intro i d m Q0 h1 h2 h3 h4 h5 h6
  subst h1
  have e1 : (appendText (appendText (reg i) [[.comment]]) [type l]).text <+: T := free_text.trans h5
  have e2 := (prefix_append _).trans e1
  have e4 := (prefix_append _).trans e2
  have r1 := (hg i _).regs h2
  have s1 := (h i d m Q0 rfl h2 h3 h4 e4 h6).comment
  have fin : Reach X V base m (appendText (appendText (reg i) [[.comment]]) [type l]) (BitVec.ofInt 32 v :: d) Q →
      Reach X V base m (jumpWith reg type none l i) d (fun _ => True) := fun s3 =>
    (s3.free hT ((r1.append _).append _) h5).weak fun _ _ => trivial
  rcases hq with ⟨rfl, hq⟩ | ⟨rfl, hq⟩
  · exact ⟨fun h0 => fin (s1.je_not hT e1 (fun f hf => by rw [hq f hf]; exact decide_eq_false h0)),
      fun h0 => (s1.je hT e1 (fun f hf => by rw [hq f hf]; exact decide_eq_true h0)).drop hn⟩
  · exact ⟨fun h0 => fin (s1.jne_not hT e1 (fun f hf => by rw [hq f hf]; exact decide_eq_true h0)),
      fun h0 => (s1.jne hT e1 (fun f hf => by rw [hq f hf]; exact decide_eq_false (fun h => h h0))).drop hn⟩

/-- A value in a new register. -/
theorem leaf_ok (hX : X.Ok) (hT : CodeAt X base T.flatten) {n : Nat} {w : Word} {op : Info → List Line} {P : Flags → Flags → Prop}
    (hop : ∀ i u (d : List Word), Regs i (d.length + 1) → RunL X V (op i) (u :: d) (w :: d) P) :
    Eok X V T base L (fun i => appendText (allocateRegister i) [op (allocateRegister i)]) n 1 w (fun _ => True) :=
  fun i d m Q0 h1 h2 h3 h4 h5 h6 => by
    subst h1
    obtain ⟨u, s1⟩ := h6.alloc hX hT h2 (by omega) ((prefix_append _).trans h5)
    exact s1.run hT (hop _ u d h2.alloc) h5 (fun _ _ _ _ => trivial)

theorem convert_ok (hT : CodeAt X base T.flatten) {reg : Info → Info} {n need : Nat} {w : Word} {Q : Flags → Prop} (t : Ty)
    (h : Eok X V T base L reg n need w Q) (hg : ∀ i n, Grows i n (reg i) (n + 1)) :
    Eok X V T base L (fun i => appendText (reg i) (convertR0 (reg i) t)) n need (conv t w) Q := fun i d m Q0 h1 h2 h3 h4 h5 h6 => by
  subst h1
  have s1 := h i d m Q0 rfl h2 h3 h4 ((prefix_append _).trans h5) h6
  have r1 := (hg i _).regs h2
  rcases convertR0_run (X := X) (V := V) (v := w) r1 t with ⟨e1, e2⟩ | ⟨ls, e1, e2⟩
  · rw [e2]
    exact s1.text (by show (reg i).text ++ convertR0 (reg i) t = _; rw [e1, List.append_nil])
  · simp only [e1] at h5 ⊢
    exact s1.run hT e2 h5 (fun f f' h (h' : f' = f) => h' ▸ h)

end

end Mes.X86
