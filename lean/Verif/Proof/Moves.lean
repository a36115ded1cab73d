import Verif.Proof.Schedule
import Verif.Proof.EvalFrame
/-
Steps of the machine in corresponding memories: one without collections, and one that may be collected at any check.
-/
namespace Mes.Gc
open Res Spec
variable {M : Mode} {P P' : Int → Prop} {f f' : Int → Int} {s s' t t' : St} {K : Calls}

/-! ### Corresponding addresses -/

theorem At.mono {a a' : Int} (h : At P f a a') (hm : ∀ b, P b → P' b ∧ f' b = f b) : At P' f' a a' :=
  ⟨(hm a h.1).1, by rw [(hm a h.1).2]; exact h.2⟩

theorem Rel.atFixed (h : Rel M P f s s') {c : Int} (h1 : c_nil ≤ c) (h2 : c < c_symbol_max) : At P f c c :=
  ⟨(h.fixed h1 h2).1, (h.fixed h1 h2).2.symm⟩
theorem Rel.at0 (h : Rel M P f s s') : At P f s.r0 s'.r0 := ⟨h.closed.root _ .r0, h.iso.r0⟩
theorem Rel.at1 (h : Rel M P f s s') : At P f s.r1 s'.r1 := ⟨h.closed.root _ .r1, h.iso.r1⟩
theorem Rel.at2 (h : Rel M P f s s') : At P f s.r2 s'.r2 := ⟨h.closed.root _ .r2, h.iso.r2⟩
theorem Rel.at3 (h : Rel M P f s s') : At P f s.r3 s'.r3 := ⟨h.closed.root _ .r3, h.iso.r3⟩
theorem Rel.atM (h : Rel M P f s s') : At P f s.m0 s'.m0 := ⟨h.closed.root _ .m0, h.iso.m0⟩

theorem Rel.atValid (h : Rel M P f s s') {a a' : Int} (ha : At P f a a') : s.Valid a ∧ s'.Valid a' :=
  ⟨h.valid ha.1, by rw [ha.2]; exact h.valid' ha.1⟩

theorem Rel.atTag (h : Rel M P f s s') {a a' : Int} (ha : At P f a a') : (s'.cell a').tag = (s.cell a).tag := by
  rw [ha.2]; exact (h.iso.cell a ha.1).tag

theorem Rel.atEq (h : Rel M P f s s') {a a' b b' : Int} (ha : At P f a a') (hb : At P f b b') : (a' = b') = (a = b) := by
  rw [ha.2, hb.2]; exact propext (h.eq_iff ha.1 hb.1)

theorem Rel.atConst (h : Rel M P f s s') {a a' c : Int} (ha : At P f a a') (h1 : c_nil ≤ c) (h2 : c < c_symbol_max) :
    (a' = c) = (a = c) := h.atEq ha (h.atFixed h1 h2)

/-- A pair in both memories. -/
structure Pairs (P : Int → Prop) (f : Int → Int) (s s' : St) (a a' : Int) : Prop where
  valid : s.Valid a
  valid' : s'.Valid a'
  tag : (s.cell a).tag = .pair
  tag' : (s'.cell a').tag = .pair
  car : At P f (s.cell a).car (s'.cell a').car
  cdr : At P f (s.cell a).cdr (s'.cell a').cdr

theorem Rel.pairs (h : Rel M P f s s') {a a' : Int} (ha : At P f a a') (ht : (s.cell a).tag = .pair) : Pairs P f s s' a a' := by
  obtain ⟨ha, rfl⟩ := ha
  have hc := h.iso.cell a ha
  exact ⟨h.valid ha, h.valid' ha, ht, hc.tag.trans ht,
    ⟨h.closed.car a ha (by rw [ht]; rfl), by rw [hc.car, if_pos (by rw [ht]; rfl)]⟩,
    ⟨h.closed.cdr a ha (by rw [ht]; rfl), by rw [hc.cdr (by rw [ht]; rfl) (by rw [ht]; nofun), if_pos (by rw [ht]; rfl)]⟩⟩

theorem Rel.cons (h : Rel M P f s s') {a a' b b' : Int} (ha : At P f a a') (hb : At P f b b') :
    Sim M P f (cons s a b) (cons s' a' b') := by
  rw [ha.2, hb.2]; exact cons_sim h ha.1 hb.1

theorem Sim.bindAt {β : Type} {W : (Int → Prop) → (Int → Int) → β → β → Prop} {m m' : Res (Int × St)} {g g' : Int × St → Res β}
    (h : Sim M P f m m')
    (hg : ∀ P' f' r r' t t', Rel M P' f' t t' → At P' f' r r' → (∀ a, P a → P' a ∧ f' a = f a) → m = Res.ok (r, t) →
      SimR M P' f' W (g (r, t)) (g' (r', t'))) : SimR M P f W (m >>= g) (m' >>= g') :=
  h.bind fun P' f' r t t' h1 h2 h3 h4 => hg P' f' r (f' r) t t' h1 ⟨h2, rfl⟩ h3 h4

theorem Sim.okAt (h : Rel M P f s s') {r r' : Int} (hr : At P f r r') : Sim M P f (.ok (r, s)) (.ok (r', s')) := by
  obtain ⟨hr, rfl⟩ := hr; exact Sim.ok h hr

/-- Computations of a memory. -/
abbrev SimS (M : Mode) (P : Int → Prop) (f : Int → Int) (m m' : Res St) : Prop := SimR M P f (Rel M) m m'

theorem SimS.ok (h : Rel M P f s s') : SimS M P f (.ok s) (.ok s') := .inr ⟨P, f, s', rfl, h, fun _ ha => ⟨ha, rfl⟩⟩

theorem SimR.mono {α : Type} {V : (Int → Prop) → (Int → Int) → α → α → Prop} {m m' : Res α} (h : SimR M P' f' V m m')
    (hm : ∀ a, P a → P' a ∧ f' a = f a) : SimR M P f V m m' := by
  cases m with
  | ok r =>
    rcases h with h | ⟨Q, g, r', e, hv, hg⟩
    · exact .inl h
    · exact .inr ⟨Q, g, r', e, hv, fun a ha => ⟨(hg a (hm a ha).1).1, by rw [(hg a (hm a ha).1).2, (hm a ha).2]⟩⟩
  | err k => exact h
  | abort => trivial
  | ub => trivial
  | loop => trivial

/-! ### Registers and the stack -/

theorem Rel.machine (h : Rel M P f s s') (he : ¬ M.exact) {a0 a1 a2 a3 q a0' a1' a2' a3' q' : Int} {st st' : Int → Int}
    (h0 : At P f a0 a0') (h1 : At P f a1 a1') (h2 : At P f a2 a2') (h3 : At P f a3 a3') (hq : q = q' + M.deeper)
    (hq0 : 0 ≤ q') (hq1 : q' ≤ s'.stackSize)
    (hst : ∀ i, q' ≤ i → i < s'.stackSize → At P f (st (i + M.deeper)) (st' i)) :
    Rel M P f { s with r0 := a0, r1 := a1, r2 := a2, r3 := a3, sp := q, stack := st }
      { s' with r0 := a0', r1 := a1', r2 := a2', r3 := a3', sp := q', stack := st' } := by
  have e := h.iso
  have hsz := e.stackSize
  have hd := h.deeper
  have root : ∀ a, Root { s with r0 := a0, r1 := a1, r2 := a2, r3 := a3, sp := q, stack := st } a → P a := fun a ha => by
    cases ha with
    | fixed h1 h2 => exact h.closed.root a (.fixed h1 h2)
    | @stack j j1 j2 =>
      dsimp only at j1 j2 ⊢
      have := (hst (j - M.deeper) (by omega) (by omega)).1
      rwa [Int.sub_add_cancel] at this
    | symbols => exact h.closed.root _ .symbols
    | macros => exact h.closed.root _ .macros
    | ports => exact h.closed.root _ .ports
    | m0 => exact h.closed.root _ .m0
    | r0 => exact h0.1
    | r1 => exact h1.1
    | r2 => exact h2.1
    | r3 => exact h3.1
  have root' : ∀ a, Root { s' with r0 := a0', r1 := a1', r2 := a2', r3 := a3', sp := q', stack := st' } a → Img P f a := fun a ha => by
    cases ha with
    | fixed h1 h2 => exact h.closed'.root a (.fixed h1 h2)
    | @stack j j1 j2 =>
      dsimp only at j1 j2 ⊢
      exact ⟨_, hst j j1 j2⟩
    | symbols => exact h.closed'.root _ .symbols
    | macros => exact h.closed'.root _ .macros
    | ports => exact h.closed'.root _ .ports
    | m0 => exact h.closed'.root _ .m0
    | r0 => exact ⟨_, h0⟩
    | r1 => exact ⟨_, h1⟩
    | r2 => exact ⟨_, h2⟩
    | r3 => exact ⟨_, h3⟩
  refine ⟨⟨root, h.closed.car, h.closed.cdr, h.closed.element⟩, ⟨root', h.closed'.car, h.closed'.cdr, h.closed'.element⟩, ?_, ?_,
    ⟨e.cell, e.element, e.inj, e.fixed, e.symbols, e.macros, e.ports, e.m0, h0.2, h1.2, h2.2, h3.2, hq, e.stackSize,
      fun i i1 i2 => (hst i i1 i2).2, e.maxString, e.continuations⟩,
    h.arena, h.room, h.cfg, h.deeper, fun x => absurd x he⟩
  · have hs := h.sound
    exact ⟨hs.base, hs.fixed, hs.inside, hs.disjoint, hs.head, hs.length, hs.plain, hs.bytes, hs.blank, hs.whole,
      ⟨by show 0 ≤ q; omega, by show q ≤ s.stackSize; omega⟩⟩
  · have hs := h.sound'
    exact ⟨hs.base, hs.fixed, hs.inside, hs.disjoint, hs.head, hs.length, hs.plain, hs.bytes, hs.blank, hs.whole, ⟨hq0, hq1⟩⟩

theorem Rel.atStack (h : Rel M P f s s') {i : Int} (h1 : s'.sp ≤ i) (h2 : i < s'.stackSize) : At P f (s.stack (i + M.deeper)) (s'.stack i) := by
  have e1 := h.iso.sp
  have e2 := h.iso.stackSize
  exact ⟨h.closed.root _ (.stack (by omega) (by omega)), h.iso.stack i h1 h2⟩

theorem Rel.setR1 (h : Rel M P f s s') (he : ¬ M.exact) {a a' : Int} (ha : At P f a a') :
    Rel M P f { s with r1 := a } { s' with r1 := a' } :=
  h.machine he h.at0 ha h.at2 h.at3 h.iso.sp h.sound'.sp.1 h.sound'.sp.2 fun _ h1 h2 => h.atStack h1 h2

theorem Rel.setR10 (h : Rel M P f s s') (he : ¬ M.exact) {a a' b b' : Int} (ha : At P f a a') (hb : At P f b b') :
    Rel M P f { s with r1 := a, r0 := b } { s' with r1 := a', r0 := b' } :=
  h.machine he hb ha h.at2 h.at3 h.iso.sp h.sound'.sp.1 h.sound'.sp.2 fun _ h1 h2 => h.atStack h1 h2

theorem Rel.pushed (h : Rel M P f s s') (he : ¬ M.exact) {p1 p1' p2 p2' a a' c : Int} (h1 : At P f p1 p1') (h2 : At P f p2 p2')
    (ha : At P f a a') (hc : c_nil ≤ c ∧ c < c_symbol_max) (hsp : 5 ≤ s'.sp) :
    Rel M P f (s.pushed p1 p2 a c) (s'.pushed p1' p2' a' c) := by
  have e1 := h.iso.sp
  have hs := h.sound'.sp
  refine h.machine he ha h1 h2 h.at3 (by omega) (by omega) (by omega) fun i i1 i2 => ?_
  by_cases j1 : i = s'.sp - 5
  · rw [if_pos (by omega), if_pos j1]; exact h.atFixed hc.1 hc.2
  rw [if_neg (by omega), if_neg j1]
  by_cases j2 : i = s'.sp - 4
  · rw [if_pos (by omega), if_pos j2]; exact h2
  rw [if_neg (by omega), if_neg j2]
  by_cases j3 : i = s'.sp - 3
  · rw [if_pos (by omega), if_pos j3]; exact h.at1
  rw [if_neg (by omega), if_neg j3]
  by_cases j4 : i = s'.sp - 2
  · rw [if_pos (by omega), if_pos j4]; exact h.at0
  rw [if_neg (by omega), if_neg j4]
  by_cases j5 : i = s'.sp - 1
  · rw [if_pos (by omega), if_pos j5]; exact h.atFixed (by decide) (by decide)
  rw [if_neg (by omega), if_neg j5]
  exact h.atStack (by omega) i2

theorem pushCc_short {p1 p2 a c : Int} (h : ¬ 5 ≤ s.sp) : pushCc s p1 p2 a c = abort := by
  simp only [pushCc, gcPushFrame, gcFrameSize, assert]
  rw [if_neg (by simpa using h)]
  rfl

theorem pushCc_sim (h : Rel M P f s s') (he : ¬ M.exact) {p1 p1' p2 p2' a a' c : Int} (h1 : At P f p1 p1') (h2 : At P f p2 p2')
    (ha : At P f a a') (hc : c_nil ≤ c ∧ c < c_symbol_max) : SimS M P f (pushCc s p1 p2 a c) (pushCc s' p1' p2' a' c) := by
  have e1 := h.iso.sp
  have hd := h.deeper
  by_cases hs : 5 ≤ s'.sp
  · rw [pushCc_ok hs h.sound'.sp.2, pushCc_ok (by omega) h.sound.sp.2]
    exact .ok (h.pushed he h1 h2 ha hc hs)
  · rw [pushCc_short hs]
    by_cases hs : 5 ≤ s.sp
    · rw [pushCc_ok hs h.sound.sp.2]
      exact .inl ⟨rfl, he⟩
    · rw [pushCc_short hs]; trivial

theorem Rel.popped (h : Rel M P f s s') (he : ¬ M.exact) (hsp : s'.sp + 5 ≤ s'.stackSize) : Rel M P f s.popped s'.popped := by
  have e1 := h.iso.sp
  have hs := h.sound'.sp
  have e2 : ∀ j : Int, s.sp + j = s'.sp + j + M.deeper := fun j => by omega
  refine h.machine he ?_ ?_ ?_ ?_ (by omega) (by omega) (by omega) fun i i1 i2 => h.atStack (by omega) i2
  · rw [e2]; exact h.atStack (by omega) (by omega)
  · rw [e2]; exact h.atStack (by omega) (by omega)
  · rw [e2]; exact h.atStack (by omega) (by omega)
  · rw [e1]; exact h.atStack (by omega) (by omega)

theorem gcPopFrame_short (h : ¬ s.sp + 5 ≤ s.stackSize) : gcPopFrame s = ub := by
  simp only [gcPopFrame, gcPeekFrame, St.getStack]
  by_cases g0 : 0 ≤ s.sp ∧ s.sp < s.stackSize
  · rw [if_pos g0, ok_bind]
    by_cases g1 : 0 ≤ s.sp + 1 ∧ s.sp + 1 < s.stackSize
    · rw [if_pos g1, ok_bind]
      by_cases g2 : 0 ≤ s.sp + 2 ∧ s.sp + 2 < s.stackSize
      · rw [if_pos g2, ok_bind]
        by_cases g3 : 0 ≤ s.sp + 3 ∧ s.sp + 3 < s.stackSize
        · rw [if_pos g3, ok_bind, if_neg (by omega)]; rfl
        · rw [if_neg g3]; rfl
      · rw [if_neg g2]; rfl
    · rw [if_neg g1]; rfl
  · rw [if_neg g0]; rfl

theorem gcPopFrame_sim (h : Rel M P f s s') (he : ¬ M.exact) : SimS M P f (gcPopFrame s) (gcPopFrame s') := by
  have e1 := h.iso.sp
  have e2 := h.iso.stackSize
  by_cases hs : s'.sp + 5 ≤ s'.stackSize
  · rw [gcPopFrame_ok h.sound'.sp.1 hs, gcPopFrame_ok h.sound.sp.1 (by omega)]
    exact .ok (h.popped he hs)
  · rw [gcPopFrame_short (s := s) (by omega)]; trivial

/-! ### The machine -/

/-- Corresponding states of the machine.  (The local variable `x` counts only in the loop of `begin`.) -/
structure RelVm (M : Mode) (P : Int → Prop) (f : Int → Int) (v u : Vm) : Prop where
  pc : u.pc = v.pc
  globalP : u.globalP = v.globalP
  macroP : u.macroP = v.macroP
  rel : Rel M P f v.s u.s
  x : v.pc = .beginLoop → At P f v.x u.x
  loose : ¬ M.exact

/-- Corresponding outcomes; that of the second may be to stop for lack of memory. -/
def SimX (M : Mode) (m m' : Res Vm) : Prop :=
  match m with
  | .ok v => m' = .abort ∨ ∃ P f u, m' = .ok u ∧ RelVm M P f v u
  | .err k => m' = .abort ∨ m' = .err k
  | _ => True

theorem SimR.simX {m m' : Res Vm} (h : SimR M P f (RelVm M) m m') : SimX M m m' := by
  cases m with
  | ok v =>
    rcases h with h | ⟨Q, g, u, e, hv, -⟩
    · exact .inl h.1
    · exact .inr ⟨Q, g, u, e, hv⟩
  | err k =>
    rcases h with h | h
    · exact .inl h.1
    · exact .inr h
  | abort => trivial
  | ub => trivial
  | loop => trivial

/-- A step of the machine does not depend on where the objects are, or whether there was a collection. -/
def Moves (K : Calls) (v : Vm) : Prop :=
  ∃ F : Nat, ∀ fuel, F ≤ fuel → ∀ M P f u, RelVm M P f v u → M.arena + 2 < (fuel : Int) → SimX M (step K fuel v) (step K fuel u)

theorem Moves.fuel {l : Label} {x : Int} {gp mp : Option Bool} (F : Nat)
    (h : ∀ fuel, F ≤ fuel → ∀ M P f s' x', ¬ M.exact → Rel M P f s s' → (l = .beginLoop → At P f x x') → M.arena + 2 < (fuel : Int) →
      SimX M (step K fuel ⟨l, s, x, gp, mp⟩) (step K fuel ⟨l, s', x', gp, mp⟩)) : Moves K ⟨l, s, x, gp, mp⟩ := by
  refine ⟨F, ?_⟩
  rintro fuel hF M P f ⟨l', s', x', gp', mp'⟩ ⟨e1, e2, e3, h1, h2, h3⟩ hf
  dsimp only at e1 e2 e3 h1 h2
  subst e1 e2 e3
  exact h fuel hF M P f s' x' h3 h1 h2 hf

theorem Moves.of {l : Label} {x : Int} {gp mp : Option Bool}
    (h : ∀ (fuel : Nat) M P f s' x', ¬ M.exact → Rel M P f s s' → (l = .beginLoop → At P f x x') → M.arena + 2 < (fuel : Int) →
      SimX M (step K fuel ⟨l, s, x, gp, mp⟩) (step K fuel ⟨l, s', x', gp, mp⟩)) : Moves K ⟨l, s, x, gp, mp⟩ :=
  .fuel 0 fun fuel _ => h fuel

/-- The steps that need no collection. -/
theorem Moves.same {l : Label} {x : Int} {gp mp : Option Bool} (_ : l ≠ .beginLoop)
    (h : ∀ (fuel : Nat) M P f s' x', ¬ M.exact → Rel M P f s s' →
      SimR M P f (RelVm M) (step K fuel ⟨l, s, x, gp, mp⟩) (step K fuel ⟨l, s', x', gp, mp⟩)) : Moves K ⟨l, s, x, gp, mp⟩ :=
  .of fun fuel M P f s' x' he hr _ _ => (h fuel M P f s' x' he hr).simX

theorem Moves.sameFuel {l : Label} {x : Int} {gp mp : Option Bool} (F : Nat)
    (h : ∀ (fuel : Nat), F ≤ fuel → ∀ M P f s' x', ¬ M.exact → Rel M P f s s' →
      SimR M P f (RelVm M) (step K fuel ⟨l, s, x, gp, mp⟩) (step K fuel ⟨l, s', x', gp, mp⟩)) : Moves K ⟨l, s, x, gp, mp⟩ :=
  .fuel F fun fuel hF M P f s' x' he hr _ _ => (h fuel hF M P f s' x' he hr).simX

theorem sim_go {l : Label} {x x' : Int} {gp mp : Option Bool} (hl : l ≠ .beginLoop) (he : ¬ M.exact) (h : Rel M P f s s') :
    SimR M P f (RelVm M) (.ok ⟨l, s, x, gp, mp⟩) (.ok ⟨l, s', x', gp, mp⟩) :=
  .inr ⟨P, f, _, rfl, ⟨rfl, rfl, rfl, h, fun e => absurd e hl, he⟩, fun _ ha => ⟨ha, rfl⟩⟩

theorem sim_loop {l : Label} {x x' : Int} {gp mp : Option Bool} (he : ¬ M.exact) (h : Rel M P f s s') (hx : At P f x x') :
    SimR M P f (RelVm M) (.ok ⟨l, s, x, gp, mp⟩) (.ok ⟨l, s', x', gp, mp⟩) :=
  .inr ⟨P, f, _, rfl, ⟨rfl, rfl, rfl, h, fun _ => hx, he⟩, fun _ ha => ⟨ha, rfl⟩⟩

theorem pushCc_go {l : Label} {x x' : Int} {gp mp : Option Bool} (hl : l ≠ .beginLoop) (h : Rel M P f s s') (he : ¬ M.exact)
    {p1 p1' p2 p2' a a' c : Int} (h1 : At P f p1 p1') (h2 : At P f p2 p2')
    (ha : At P f a a') (hc : c_nil ≤ c ∧ c < c_symbol_max) :
    SimR M P f (RelVm M) (pushCc s p1 p2 a c >>= fun t => .ok ⟨l, t, x, gp, mp⟩) (pushCc s' p1' p2' a' c >>= fun t => .ok ⟨l, t, x', gp, mp⟩) :=
  (pushCc_sim h he h1 h2 ha hc).bind fun _ _ _ _ h _ _ => sim_go hl he h

/-! ### Where the step needs nothing to be known -/

theorem label_case {r c : Int} {l l' : Label} {o : Option Label} (hc : c_nil ≤ c ∧ c < c_symbol_max) (hl : l' ≠ .beginLoop)
    (h : o = some l → (c_nil ≤ r ∧ r < c_symbol_max) ∧ l ≠ .beginLoop) :
    (if r = c then some l' else o) = some l → (c_nil ≤ r ∧ r < c_symbol_max) ∧ l ≠ .beginLoop := by
  split
  · intro e; cases e; subst r; exact ⟨hc, hl⟩
  · exact h

theorem labelOf_fixed {r : Int} {l : Label} : labelOf r = some l → (c_nil ≤ r ∧ r < c_symbol_max) ∧ l ≠ .beginLoop := by
  unfold labelOf
  repeat refine label_case (by decide) (by decide) ?_
  nofun

theorem labelOf_sim (h : Rel M P f s s') : labelOf s'.r3 = labelOf s.r3 := by
  cases hl : labelOf s.r3 with
  | some l =>
    have := (labelOf_fixed hl).1
    rw [h.iso.r3, h.iso.fixed _ this.1 this.2, hl]
  | none =>
    cases hl' : labelOf s'.r3 with
    | none => rfl
    | some l =>
      have := (labelOf_fixed hl').1
      have e := (h.atConst h.at3 this.1 this.2).mp rfl
      rw [e, hl'] at hl
      cases hl

theorem moves_dispatch (s : St) (x : Int) (gp mp : Option Bool) : Moves K ⟨.dispatch, s, x, gp, mp⟩ :=
  .same (by decide) fun fuel M P f s' x' he h => by
    simp only [step, labelOf_sim h]
    cases hl : labelOf s.r3 with
    | none => trivial
    | some l => exact sim_go (labelOf_fixed hl).2 he h

theorem vmReturn_sim (h : Rel M P f s s') (he : ¬ M.exact) : SimS M P f (vmReturn s) (vmReturn s') := by
  simp only [vmReturn]
  refine (gcPopFrame_sim h he).bind fun P' f' t t' h1 hm _ => ?_
  exact SimS.ok (h1.setR1 he (h.at1.mono hm))

theorem moves_return (s : St) (x : Int) (gp mp : Option Bool) : Moves K ⟨.vmReturn, s, x, gp, mp⟩ :=
  .same (by decide) fun fuel M P f s' x' he h => by
    simp only [step]
    exact (vmReturn_sim h he).bind fun P' f' t t' h1 hm _ => sim_go (by decide) he h1

theorem moves_evlis (s : St) (x : Int) (gp mp : Option Bool) : Moves K ⟨.evlis, s, x, gp, mp⟩ :=
  .same (by decide) fun fuel M P f s' x' he h => by
    simp only [step, h.atConst h.at1 (c := c_nil) (by decide) (by decide)]
    split
    · exact sim_go (by decide) he h
    · obtain ⟨v1, v2⟩ := h.atValid h.at1
      simp only [St.rd_ok v1, St.rd_ok v2, ok_bind, h.atTag h.at1]
      split
      · exact sim_go (by decide) he h
      · rename_i ht
        have hp := h.pairs h.at1 (by simpa using ht)
        exact pushCc_go (by decide) h he hp.car h.at1 h.at0 (by decide)

theorem moves_evlis2 (x : Int) (gp mp : Option Bool) (ht : (s.cell s.r2).tag = .pair) : Moves K ⟨.evlis2, s, x, gp, mp⟩ :=
  .same (by decide) fun fuel M P f s' x' he h => by
    have hp := h.pairs h.at2 ht
    simp only [step, St.cdr_ok hp.valid, St.cdr_ok hp.valid', ok_bind]
    exact pushCc_go (by decide) h he hp.cdr h.at1 h.at0 (by decide)

theorem cons_go {l : Label} {x x' : Int} {gp mp : Option Bool} (hl : l ≠ .beginLoop) (h : Rel M P f s s') (he : ¬ M.exact)
    {a a' b b' : Int} (ha : At P f a a') (hb : At P f b b') :
    SimR M P f (RelVm M) (cons s a b >>= fun r => .ok ⟨l, { r.2 with r1 := r.1 }, x, gp, mp⟩)
      (cons s' a' b' >>= fun r => .ok ⟨l, { r.2 with r1 := r.1 }, x', gp, mp⟩) :=
  (h.cons ha hb).bindAt fun _ _ _ _ _ _ h1 h2 _ _ => sim_go hl he (h1.setR1 he h2)

theorem moves_evlis3 (s : St) (x : Int) (gp mp : Option Bool) : Moves K ⟨.evlis3, s, x, gp, mp⟩ :=
  .same (by decide) fun fuel M P f s' x' he h => by
    simp only [step]
    exact cons_go (by decide) h he h.at2 h.at1

theorem moves_checkFunc (x : Int) (gp mp : Option Bool) (ht : (s.cell s.r2).tag = .pair) : Moves K ⟨.evalCheckFunc, s, x, gp, mp⟩ :=
  .same (by decide) fun fuel M P f s' x' he h => by
    have hp := h.pairs h.at2 ht
    simp only [step, St.cdr_ok hp.valid, St.cdr_ok hp.valid', ok_bind]
    exact pushCc_go (by decide) h he hp.cdr h.at2 h.at0 (by decide)

theorem moves_eval2 (x : Int) (gp mp : Option Bool) (ht : (s.cell s.r2).tag = .pair) : Moves K ⟨.eval2, s, x, gp, mp⟩ :=
  .same (by decide) fun fuel M P f s' x' he h => by
    have hp := h.pairs h.at2 ht
    simp only [step, St.car_ok hp.valid, St.car_ok hp.valid', ok_bind]
    exact cons_go (by decide) h he hp.car h.at1

theorem moves_begin (s : St) (x : Int) (gp mp : Option Bool) : Moves K ⟨.begin, s, x, gp, mp⟩ :=
  .same (by decide) fun fuel M P f s' x' he h => by
    simp only [step]
    exact sim_loop he h (h.atFixed (by decide) (by decide))

theorem moves_beginEval (x : Int) (gp mp : Option Bool) (ht : (s.cell s.r2).tag = .pair) : Moves K ⟨.beginEval, s, x, gp, mp⟩ :=
  .same (by decide) fun fuel M P f s' x' he h => by
    have hp := h.pairs h.at2 ht
    simp only [step, St.cdr_ok hp.valid, St.cdr_ok hp.valid', ok_bind]
    exact sim_loop he (h.setR1 he hp.cdr) h.at1

theorem moves_beginRest (x : Int) (gp mp : Option Bool) (ht : (s.cell s.r1).tag = .pair) : Moves K ⟨.beginRest, s, x, gp, mp⟩ :=
  .same (by decide) fun fuel M P f s' x' he h => by
    have hp := h.pairs h.at1 ht
    simp only [step, St.rd_ok hp.valid, St.rd_ok hp.valid', ok_bind, h.atConst hp.cdr (c := c_nil) (by decide) (by decide)]
    split
    · exact sim_go (by decide) he (h.setR1 he hp.car)
    · exact pushCc_go (by decide) h he hp.car h.at1 h.at0 (by decide)

theorem moves_if (x : Int) (gp mp : Option Bool) (ht : (s.cell s.r1).tag = .pair) : Moves K ⟨.vmIf, s, x, gp, mp⟩ :=
  .same (by decide) fun fuel M P f s' x' he h => by
    have hp := h.pairs h.at1 ht
    simp only [step, St.rd_ok hp.valid, St.rd_ok hp.valid', ok_bind]
    exact pushCc_go (by decide) h he hp.car h.at1 h.at0 (by decide)

theorem moves_ifExpr (x : Int) (gp mp : Option Bool) (ht : (s.cell s.r2).tag = .pair) (hd : (s.cell (s.cell s.r2).cdr).tag = .pair)
    (he : s.r1 = c_f → (s.cell (s.cell s.r2).cdr).cdr ≠ c_nil → (s.cell (s.cell (s.cell s.r2).cdr).cdr).tag = .pair) :
    Moves K ⟨.ifExpr, s, x, gp, mp⟩ :=
  .same (by decide) fun fuel M P f s' x' hx h => by
    have hp := h.pairs h.at2 ht
    have hp2 := h.pairs hp.cdr hd
    simp only [step, St.cdr_ok hp.valid, St.cdr_ok hp.valid', St.rd_ok hp2.valid, St.rd_ok hp2.valid', ok_bind, ne_eq,
      h.atConst h.at1 (c := c_f) (by decide) (by decide), h.atConst hp2.cdr (c := c_nil) (by decide) (by decide)]
    split
    · exact sim_go (by decide) hx (h.setR1 hx hp2.car)
    · rename_i h1
      split
      · rename_i h2
        have hp3 := h.pairs hp2.cdr (he (by simpa using h1) h2)
        simp only [St.car_ok hp3.valid, St.car_ok hp3.valid', ok_bind]
        exact sim_go (by decide) hx (h.setR1 hx hp3.car)
      · exact sim_go (by decide) hx (h.setR1 hx (h.atFixed (by decide) (by decide)))

/-! ### The checks for collections -/

theorem gcCheck_sim (h : Rel M P f s s') {fuel : Nat} (hf : M.arena + 2 < (fuel : Int)) :
    (gcCheck s' fuel = abort ∧ ¬ M.exact) ∨ ∃ P' f' s'', gcCheck s' fuel = ok s'' ∧ Rel M P' f' s s'' := by
  unfold gcCheck
  split
  · rcases gc_sim h (fuel := fuel) (by rw [h.arena]; omega) with h | ⟨g, s'', e1, e2⟩
    · exact .inl h
    · exact .inr ⟨_, g, s'', e1, e2⟩
  · exact .inr ⟨P, f, s', rfl, h⟩

/-- A step continues after a check for collections. -/
theorem sim_check (h : Rel M P f s s') {fuel : Nat} (hf : M.arena + 2 < (fuel : Int)) {k : St → Res Vm} {k' : St → Res Vm}
    (hs : gcCheck s fuel = ok s) (hk : ∀ P f t', Rel M P f s t' → SimR M P f (RelVm M) (k s) (k' t')) :
    SimX M (gcCheck s fuel >>= k) (gcCheck s' fuel >>= k') := by
  rw [hs, ok_bind]
  rcases gcCheck_sim h hf with ⟨e, -⟩ | ⟨P', f', s'', e, h'⟩
  · rw [e]
    cases k s with
    | ok v => exact .inl rfl
    | err k => exact .inl rfl
    | abort => trivial
    | ub => trivial
    | loop => trivial
  · rw [e, ok_bind]
    exact (hk P' f' s'' h').simX

theorem sameCar_const (h : Rel M P f s s') {a a' c : Int} (ha : At P f a a') (h1 : c_nil ≤ c) (h2 : c < c_symbol_max) :
    ((s'.cell a').car = c) = ((s.cell a).car = c) := by
  obtain ⟨ha, rfl⟩ := ha
  have hc := h.iso.cell a ha
  by_cases hr : refCar (s.cell a).tag
  · exact h.atConst ⟨h.closed.car a ha hr, by rw [hc.car, if_pos hr]⟩ h1 h2
  · rw [hc.car, if_neg hr]

theorem moves_beginLoop (x : Int) (gp mp : Option Bool) (hc : s.r1 ≠ c_nil → ∀ fuel, gcCheck s fuel = ok s) :
    Moves K ⟨.beginLoop, s, x, gp, mp⟩ :=
  .of fun fuel M P f s' x' he h hx hf => by
    simp only [step, h.atConst h.at1 (c := c_nil) (by decide) (by decide)]
    split
    · exact (sim_go (by decide) he (h.setR1 he (hx rfl))).simX
    · rename_i hne
      refine sim_check h hf (hc hne fuel) fun P f t' h => ?_
      obtain ⟨v1, v2⟩ := h.atValid h.at1
      simp only [St.rd_ok v1, St.rd_ok v2, ok_bind, h.atTag h.at1]
      split
      · rename_i ht
        have hp := h.pairs h.at1 ht
        obtain ⟨w1, w2⟩ := h.atValid hp.car
        simp only [St.rd_ok w1, St.rd_ok w2, ok_bind, sameCar_const h hp.car (c := c_symbol_primitive_load) (by decide) (by decide)]
        split
        · refine (h.cons hp.car (h.atFixed (by decide) (by decide))).bindAt fun P' f' r r' t t' h1 h2 hm _ => ?_
          exact pushCc_go (by decide) h1 he h2 h1.at1 h1.at0 (by decide)
        · exact sim_go (by decide) he h
      · exact sim_go (by decide) he h

/-! ### Forms -/

theorem moves_self (x : Int) (gp mp : Option Bool) (h1 : (s.cell s.r1).tag ≠ .pair) (h2 : (s.cell s.r1).tag ≠ .symbol)
    (h3 : (s.cell s.r1).tag ≠ .variable) : Moves K ⟨.eval, s, x, gp, mp⟩ :=
  .same (by decide) fun fuel M P f s' x' he h => by
    obtain ⟨v1, v2⟩ := h.atValid h.at1
    simp only [step, St.rd_ok v1, St.rd_ok v2, ok_bind, h.atTag h.at1]
    generalize (s.cell s.r1).tag = tg at h1 h2 h3
    cases tg <;> first | exact absurd rfl h1 | exact absurd rfl h2 | exact absurd rfl h3 | exact .err _ | exact sim_go (by decide) he h

/-- The first step for a pair. -/
theorem Pairs.heads (h : Rel M P f s s') {a a' : Int} (ha : At P f a a') :
    (a' = c_symbol_pmatch_car) = (a = c_symbol_pmatch_car) ∧ (a' = c_symbol_pmatch_cdr) = (a = c_symbol_pmatch_cdr) ∧
    (a' = c_symbol_quote) = (a = c_symbol_quote) ∧ (a' = c_symbol_begin) = (a = c_symbol_begin) ∧
    (a' = c_symbol_lambda) = (a = c_symbol_lambda) ∧ (a' = c_symbol_if) = (a = c_symbol_if) ∧
    (a' = c_symbol_set_x) = (a = c_symbol_set_x) ∧ (a' = c_vm_macro_expand) = (a = c_vm_macro_expand) ∧
    (a' = c_symbol_define) = (a = c_symbol_define) ∧ (a' = c_symbol_define_macro) = (a = c_symbol_define_macro) :=
  ⟨h.atConst ha (by decide) (by decide), h.atConst ha (by decide) (by decide), h.atConst ha (by decide) (by decide),
    h.atConst ha (by decide) (by decide), h.atConst ha (by decide) (by decide), h.atConst ha (by decide) (by decide),
    h.atConst ha (by decide) (by decide), h.atConst ha (by decide) (by decide), h.atConst ha (by decide) (by decide),
    h.atConst ha (by decide) (by decide)⟩

theorem moves_quote (x : Int) (gp mp : Option Bool) (ht : (s.cell s.r1).tag = .pair) (hh : (s.cell s.r1).car = c_symbol_quote)
    (hd : (s.cell (s.cell s.r1).cdr).tag = .pair) : Moves K ⟨.eval, s, x, gp, mp⟩ :=
  .same (by decide) fun fuel M P f s' x' he h => by
    have hp := h.pairs h.at1 ht
    have hp2 := h.pairs hp.cdr hd
    obtain ⟨e1, e2, e3, e4, e5, e6, e7, e8, e9, e10⟩ := Pairs.heads h hp.car
    simp only [step, St.rd_ok hp.valid, St.rd_ok hp.valid', ok_bind, hp.tag, hp.tag', e1, e2, e3, hh,
      show ¬ (c_symbol_quote = c_symbol_pmatch_car) by decide, show ¬ (c_symbol_quote = c_symbol_pmatch_cdr) by decide, if_false, if_true]
    refine (gcPopFrame_sim h he).bind fun P' f' t t' h1 hm e => ?_
    have c1 : t.cell = s.cell ∧ t.free = s.free := by
      simp only [gcPopFrame, gcPeekFrame, Res.bind_eq_ok] at e
      obtain ⟨_, ⟨_, -, _, -, _, -, _, -, _, -, e⟩, e'⟩ := e
      cases e; cases e'
      exact ⟨rfl, rfl⟩
    have hp3 := h1.pairs (hp.cdr.mono hm) (by rw [c1.1]; exact hd)
    simp only [St.car_ok hp3.valid, St.car_ok hp3.valid', ok_bind]
    exact sim_go (by decide) he (h1.setR1 he hp3.car)

theorem moves_evalBegin (x : Int) (gp mp : Option Bool) (ht : (s.cell s.r1).tag = .pair) (hh : (s.cell s.r1).car = c_symbol_begin) :
    Moves K ⟨.eval, s, x, gp, mp⟩ :=
  .same (by decide) fun fuel M P f s' x' he h => by
    have hp := h.pairs h.at1 ht
    obtain ⟨e1, e2, e3, e4, e5, e6, e7, e8, e9, e10⟩ := Pairs.heads h hp.car
    simp only [step, St.rd_ok hp.valid, St.rd_ok hp.valid', ok_bind, hp.tag, hp.tag', e1, e2, e3, e4, hh,
      show ¬ (c_symbol_begin = c_symbol_pmatch_car) by decide, show ¬ (c_symbol_begin = c_symbol_pmatch_cdr) by decide,
      show ¬ (c_symbol_begin = c_symbol_quote) by decide, if_false, if_true]
    exact sim_go (by decide) he h

theorem makeClosure_sim (h : Rel M P f s s') {a a' b b' c c' : Int} (ha : At P f a a') (hb : At P f b b') (hc : At P f c c') :
    Sim M P f (makeClosure s a b c) (makeClosure s' a' b' c') := by
  unfold makeClosure
  refine (h.cons (h.atFixed (by decide) (by decide)) hc).bindAt fun P1 f1 p p' t1 t1' h1 hp m1 _ => ?_
  refine (h1.cons (ha.mono m1) (hb.mono m1)).bindAt fun P2 f2 q q' t2 t2' h2 hq m2 _ => ?_
  refine (h2.cons (hp.mono m2) hq).bindAt fun P3 f3 d d' t3 t3' h3 hd m3 _ => ?_
  obtain ⟨hd, rfl⟩ := hd
  exact makeCell_sim h3 ⟨rfl, nofun, rfl, nofun, nofun, fun _ => hd⟩ ⟨rfl, rfl, fun _ _ => rfl, nofun⟩

theorem moves_lambda (x : Int) (gp mp : Option Bool) (ht : (s.cell s.r1).tag = .pair) (hh : (s.cell s.r1).car = c_symbol_lambda)
    (hd : (s.cell (s.cell s.r1).cdr).tag = .pair) : Moves K ⟨.eval, s, x, gp, mp⟩ :=
  .same (by decide) fun fuel M P f s' x' he h => by
    have hp := h.pairs h.at1 ht
    have hp2 := h.pairs hp.cdr hd
    obtain ⟨e1, e2, e3, e4, e5, e6, e7, e8, e9, e10⟩ := Pairs.heads h hp.car
    simp only [step, St.rd_ok hp.valid, St.rd_ok hp.valid', ok_bind, hp.tag, hp.tag', e1, e2, e3, e4, e5, hh,
      show ¬ (c_symbol_lambda = c_symbol_pmatch_car) by decide, show ¬ (c_symbol_lambda = c_symbol_pmatch_cdr) by decide,
      show ¬ (c_symbol_lambda = c_symbol_quote) by decide, show ¬ (c_symbol_lambda = c_symbol_begin) by decide, if_false, if_true,
      St.rd_ok hp2.valid, St.rd_ok hp2.valid']
    exact (makeClosure_sim h hp2.car hp2.cdr h.at0).bindAt fun _ _ _ _ _ _ h1 h2 _ _ => sim_go (by decide) he (h1.setR1 he h2)

theorem moves_evalIf (x : Int) (gp mp : Option Bool) (ht : (s.cell s.r1).tag = .pair) (hh : (s.cell s.r1).car = c_symbol_if) :
    Moves K ⟨.eval, s, x, gp, mp⟩ :=
  .same (by decide) fun fuel M P f s' x' he h => by
    have hp := h.pairs h.at1 ht
    obtain ⟨e1, e2, e3, e4, e5, e6, e7, e8, e9, e10⟩ := Pairs.heads h hp.car
    simp only [step, St.rd_ok hp.valid, St.rd_ok hp.valid', ok_bind, hp.tag, hp.tag', e1, e2, e3, e4, e5, e6, hh,
      show ¬ (c_symbol_if = c_symbol_pmatch_car) by decide, show ¬ (c_symbol_if = c_symbol_pmatch_cdr) by decide,
      show ¬ (c_symbol_if = c_symbol_quote) by decide, show ¬ (c_symbol_if = c_symbol_begin) by decide,
      show ¬ (c_symbol_if = c_symbol_lambda) by decide, if_false, if_true]
    exact sim_go (by decide) he (h.setR1 he hp.cdr)

theorem moves_set (x : Int) (gp mp : Option Bool) (ht : (s.cell s.r1).tag = .pair) (hh : (s.cell s.r1).car = c_symbol_set_x)
    (hd : (s.cell (s.cell s.r1).cdr).tag = .pair) (hdd : (s.cell (s.cell (s.cell s.r1).cdr).cdr).tag = .pair) :
    Moves K ⟨.eval, s, x, gp, mp⟩ :=
  .same (by decide) fun fuel M P f s' x' he h => by
    have hp := h.pairs h.at1 ht
    have hp2 := h.pairs hp.cdr hd
    have hp3 := h.pairs hp2.cdr hdd
    obtain ⟨e1, e2, e3, e4, e5, e6, e7, e8, e9, e10⟩ := Pairs.heads h hp.car
    simp only [step, St.rd_ok hp.valid, St.rd_ok hp.valid', ok_bind, hp.tag, hp.tag', e1, e2, e3, e4, e5, e6, e7, hh,
      show ¬ (c_symbol_set_x = c_symbol_pmatch_car) by decide, show ¬ (c_symbol_set_x = c_symbol_pmatch_cdr) by decide,
      show ¬ (c_symbol_set_x = c_symbol_quote) by decide, show ¬ (c_symbol_set_x = c_symbol_begin) by decide,
      show ¬ (c_symbol_set_x = c_symbol_lambda) by decide, show ¬ (c_symbol_set_x = c_symbol_if) by decide, if_false, if_true,
      St.cdr_ok hp2.valid, St.cdr_ok hp2.valid', St.car_ok hp3.valid, St.car_ok hp3.valid']
    exact pushCc_go (by decide) h he hp3.car h.at1 h.at0 (by decide)

theorem moves_app (x : Int) (gp mp : Option Bool) (ht : (s.cell s.r1).tag = .pair) (hh : ¬ SpecialForm (s.cell s.r1).car)
    (hgc : ∀ fuel, gcCheck (s.pushed (s.cell s.r1).car s.r1 s.r0 c_vm_eval_check_func) fuel =
      ok (s.pushed (s.cell s.r1).car s.r1 s.r0 c_vm_eval_check_func)) : Moves K ⟨.eval, s, x, gp, mp⟩ :=
  .of fun fuel M P f s' x' he h hx hf => by
    have hp := h.pairs h.at1 ht
    obtain ⟨e1, e2, e3, e4, e5, e6, e7, e8, e9, e10⟩ := Pairs.heads h hp.car
    unfold SpecialForm at hh
    simp only [not_or] at hh
    simp only [step, St.rd_ok hp.valid, St.rd_ok hp.valid', ok_bind, hp.tag, hp.tag', e1, e2, e3, e4, e5, e6, e7, e8, e9, e10, hh,
      if_false, or_self]
    have e1 := h.iso.sp
    have hd := h.deeper
    by_cases h5 : 5 ≤ s'.sp
    · rw [pushCc_ok h5 h.sound'.sp.2, pushCc_ok (by omega) h.sound.sp.2, ok_bind, ok_bind]
      exact sim_check (h.pushed he hp.car h.at1 h.at0 (by decide) h5) hf (hgc fuel) fun P f t' h => sim_go (by decide) he h
    · rw [pushCc_short h5]
      by_cases hs : 5 ≤ s.sp
      · rw [pushCc_ok hs h.sound.sp.2, ok_bind, hgc]
        exact .inl rfl
      · rw [pushCc_short hs]; trivial

/-! ### Sequences of steps -/

/-- The machine goes from `v` to `v'`; and if `Q`, from any corresponding state to one that corresponds to `v'`, or it stops
for lack of memory. -/
def Walk (Q : Prop) (K : Calls) (v v' : Vm) : Prop :=
  ∃ n F, ∀ fuel, F ≤ fuel → run K fuel n v = .ok v' ∧ (Q → ∀ M P f u, RelVm M P f v u → M.arena + 2 < (fuel : Int) →
    SimX M (.ok v') (run K fuel n u))

/-- The same for an error. -/
def Falls (Q : Prop) (K : Calls) (v : Vm) (key : Key) : Prop :=
  ∃ n F, ∀ fuel, F ≤ fuel → run K fuel n v = .err key ∧ (Q → ∀ M P f u, RelVm M P f v u → M.arena + 2 < (fuel : Int) →
    SimX M (.err key) (run K fuel n u))

variable {Q : Prop} {v v' v'' : Vm} {key : Key}

theorem Walk.steps (h : Walk Q K v v') : Steps K v v' := by
  obtain ⟨n, F, h⟩ := h
  exact ⟨n, F, fun fuel hf => (h fuel hf).1⟩

theorem Walk.refl (v : Vm) : Walk Q K v v := ⟨0, 0, fun _ _ => ⟨rfl, fun _ _ P f u h _ => .inr ⟨P, f, u, rfl, h⟩⟩⟩

theorem Walk.trans (h : Walk Q K v v') (h' : Walk Q K v' v'') : Walk Q K v v'' := by
  obtain ⟨n, F, h⟩ := h
  obtain ⟨m, F', h'⟩ := h'
  refine ⟨n + m, max F F', fun fuel hf => ⟨?_, fun q M P f u hr ha => ?_⟩⟩
  · rw [run_add, (h fuel (by omega)).1, ok_bind, (h' fuel (by omega)).1]
  · rw [run_add]
    rcases (h fuel (by omega)).2 q M P f u hr ha with e | ⟨P1, f1, u1, e, hr1⟩
    · rw [e]; exact .inl rfl
    · rw [e, ok_bind]; exact (h' fuel (by omega)).2 q M P1 f1 u1 hr1 ha

theorem Walk.falls (h : Walk Q K v v') (h' : Falls Q K v' key) : Falls Q K v key := by
  obtain ⟨n, F, h⟩ := h
  obtain ⟨m, F', h'⟩ := h'
  refine ⟨n + m, max F F', fun fuel hf => ⟨?_, fun q M P f u hr ha => ?_⟩⟩
  · rw [run_add, (h fuel (by omega)).1, ok_bind, (h' fuel (by omega)).1]
  · rw [run_add]
    rcases (h fuel (by omega)).2 q M P f u hr ha with e | ⟨P1, f1, u1, e, hr1⟩
    · rw [e]; exact .inl rfl
    · rw [e, ok_bind]; exact (h' fuel (by omega)).2 q M P1 f1 u1 hr1 ha

theorem Falls.fails (h : Falls Q K v key) : Fails K v key := by
  obtain ⟨n, F, h⟩ := h
  exact ⟨n, F, fun fuel hf => (h fuel hf).1⟩

theorem run_one (fuel : Nat) (v : Vm) : run K fuel 1 v = step K fuel v := by
  simp only [run]
  cases step K fuel v <;> rfl

theorem Moves.ex (hm : Q → Moves K v) : ∃ F : Nat, Q → ∀ fuel, F ≤ fuel → ∀ M P f u, RelVm M P f v u → M.arena + 2 < (fuel : Int) →
    SimX M (step K fuel v) (step K fuel u) := by
  by_cases q : Q
  · obtain ⟨F, h⟩ := hm q; exact ⟨F, fun _ => h⟩
  · exact ⟨0, fun h => absurd h q⟩

theorem Walk.fuel (hm : Q → Moves K v) (F : Nat) (h : ∀ fuel, F ≤ fuel → step K fuel v = .ok v') : Walk Q K v v' := by
  obtain ⟨F', hm⟩ := Moves.ex hm
  refine ⟨1, max F F', fun fuel hf => ⟨by rw [run_one, h fuel (by omega)], fun q M P f u hr ha => ?_⟩⟩
  rw [run_one, ← h fuel (by omega)]
  exact hm q fuel (by omega) M P f u hr ha

theorem Walk.one (hm : Q → Moves K v) (h : ∀ fuel, step K fuel v = .ok v') : Walk Q K v v' := .fuel hm 0 fun fuel _ => h fuel

theorem Falls.step (hm : Q → Moves K v) (F : Nat) (h : ∀ fuel, F ≤ fuel → step K fuel v = .err key) : Falls Q K v key := by
  obtain ⟨F', hm⟩ := Moves.ex hm
  refine ⟨1, max F F', fun fuel hf => ⟨by rw [run_one, h fuel (by omega)], fun q M P f u hr ha => ?_⟩⟩
  rw [run_one, ← h fuel (by omega)]
  exact hm q fuel (by omega) M P f u hr ha

theorem Walk.dispatch {x : Int} {gp mp : Option Bool} {l : Label} (h : labelOf s.r3 = some l) :
    Walk Q K ⟨.dispatch, s, x, gp, mp⟩ ⟨l, s, x, gp, mp⟩ :=
  .one (fun _ => moves_dispatch ..) fun fuel => by simp only [Mes.step, h]

theorem Walk.ret {k d : Nat} {x : Int} {gp mp : Option Bool} (h : Ready s k d) :
    Walk Q K ⟨.vmReturn, s, x, gp, mp⟩ ⟨.dispatch, { s.popped with r1 := s.r1 }, x, gp, mp⟩ :=
  .one (fun _ => moves_return ..) fun fuel => by simp only [Mes.step, vmReturn, h.pop, ok_bind]

end Mes.Gc
