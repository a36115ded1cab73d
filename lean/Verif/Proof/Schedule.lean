import Verif.Proof.GcPath
import Verif.Proof.Lists
import Verif.Spec.Schedule
/-
The moment of a collection does not matter to programs made of primitives.
-/
namespace Mes.Gc
open Res Spec
variable {M : Mode} {P : Int → Prop} {f : Int → Int} {s s' : St}

theorem Sim.bind {β : Type} {W : (Int → Prop) → (Int → Int) → β → β → Prop} {m m' : Res (Int × St)} {g g' : Int × St → Res β}
    (h : Sim M P f m m')
    (hg : ∀ P' f' r t t', Rel M P' f' t t' → P' r → (∀ a, P a → P' a ∧ f' a = f a) → m = Res.ok (r, t) →
      SimR M P' f' W (g (r, t)) (g' (f' r, t'))) : SimR M P f W (m >>= g) (m' >>= g') :=
  SimR.bind h fun P' f' r r' h1 h2 h3 => by
    obtain ⟨a, t⟩ := r
    obtain ⟨a', t'⟩ := r'
    obtain ⟨h4, h5, rfl⟩ := h1
    exact hg P' f' a t t' h4 h5 h2 h3

theorem var_sim (h : Rel M P f s s') (x : Nat) : SimV (At P f) (var s x) (var s' x) := by
  have e1 := h.iso.sp
  have e2 := h.iso.stackSize
  unfold var
  split
  · rw [if_pos (by omega)]
    refine ⟨_, rfl, h.closed.root _ (.stack (by omega) (by omega)), ?_⟩
    rw [h.iso.stack _ (by omega) (by omega), show s'.sp + (x : Int) + M.deeper = s.sp + x by omega]
  · trivial

theorem vars_sim (h : Rel M P f s s') : ∀ xs : List Nat,
    SimV (fun as bs => (∀ a ∈ as, P a) ∧ bs = as.map f ∧ as.length = xs.length) (vars s xs) (vars s' xs)
  | [] => ⟨_, rfl, by simp, rfl, rfl⟩
  | x :: xs => by
    rw [vars, vars]
    refine (var_sim h x).bind fun a a' _ ha => ?_
    obtain ⟨ha, rfl⟩ := ha
    refine (vars_sim h xs).bind fun as bs _ has => ?_
    obtain ⟨has, rfl, hl⟩ := has
    exact ⟨_, rfl, by simpa [ha] using has, rfl, by simp [hl]⟩

theorem argList_sim (h : Rel M P f s s') : ∀ as : List Int, (∀ a ∈ as, P a) → Sim M P f (argList s as) (argList s' (as.map f))
  | [], _ => by
    have := h.fixed (a := c_nil) (by decide) (by decide)
    have h' := Sim.ok h this.1
    rw [this.2] at h'
    exact h'
  | a :: as, ha => by
    rw [argList, List.map_cons, argList]
    refine (argList_sim h as (fun b hb => ha b (by simp [hb]))).bind fun P' f' r t t' h1 h2 h3 _ => ?_
    have := h3 a (ha a (by simp))
    have h' := cons_sim h1 this.1 h2
    rw [this.2] at h'
    exact h'

theorem argList_list : ∀ {as : List Int} {s t : St} {r : Int}, c_symbol_max ≤ s.free → argList s as = ok (r, t) →
    c_symbol_max ≤ t.free ∧ IsList t r as
  | [], s, t, r, hb, h => by
    simp only [argList, ok.injEq, Prod.mk.injEq] at h
    obtain ⟨rfl, rfl⟩ := h
    exact ⟨hb, .nil⟩
  | a :: as, s, t, r, hb, h => by
    rw [argList] at h
    cases hm : argList s as with
    | ok p =>
      obtain ⟨q, u⟩ := p
      obtain ⟨h1, h2⟩ := argList_list hb hm
      rw [hm] at h
      simp only [ok_bind, Mes.cons, makeCell] at h
      split at h
      · cases h
      · simp only [ok.injEq, Prod.mk.injEq] at h
        obtain ⟨rfl, rfl⟩ := h
        have hx := push_ext u { tag := .pair, car := a, cdr := q }
        refine ⟨by show c_symbol_max ≤ u.free + 1; simp only [c_symbol_max] at *; omega, ?_⟩
        simp only [c_symbol_max] at h1
        have hl : IsList (u.push { tag := .pair, car := a, cdr := q }) q as := h2.ext hx
        show IsList (u.push { tag := .pair, car := a, cdr := q }) u.free (a :: as)
        exact .cons (by simp only [c_nil]; omega) ⟨by omega, by show u.free < u.free + 1; omega⟩ (by simp) (by simp)
          (by simpa using hl)
    | err k => rw [hm] at h; cases h
    | abort => rw [hm] at h; cases h
    | ub => rw [hm] at h; cases h
    | loop => rw [hm] at h; cases h

theorem proper_of_list {r : Int} {as : List Int} (h : IsList s r as) : Proper s r := by
  induction h with
  | nil => exact .nil
  | cons _ _ ht _ _ ih => exact .cons ht ih

theorem withArgs_sim (h : Rel M P f s s') (xs : List Nat) {p p' : St → Int → Res (Int × St)}
    (hp : ∀ P' f' l t t', Rel M P' f' t t' → P' l → Proper t l → (xs ≠ [] → (t.cell l).tag = .pair) → Sim M P' f' (p t l) (p' t' (f' l))) :
    Sim M P f (withArgs s xs p) (withArgs s' xs p') := by
  refine (vars_sim h xs).simS fun as bs _ has => ?_
  obtain ⟨has, rfl, hl⟩ := has
  refine (argList_sim h as has).bind fun P' f' r t t' h1 h2 h3 e => ?_
  have hlist := (argList_list h.sound.base e).2
  refine hp P' f' r t t' h1 h2 (proper_of_list hlist) fun hne => ?_
  cases hlist with
  | nil => cases xs with
    | nil => exact absurd rfl hne
    | cons _ _ => simp at hl
  | cons _ _ ht _ _ => exact ht

theorem pure_at (h : Rel M P f s s') {m m' : Res Int} (hm : SimV (At P f) m m') : Sim M P f (Spec.pure s m) (Spec.pure s' m') :=
  hm.simS fun r r' _ hr => by obtain ⟨hr, rfl⟩ := hr; exact Sim.ok h hr

theorem pure_same (h : Rel M P f s s') {m m' : Res Int} (hm : SimV Same m m') : Sim M P f (Spec.pure s m) (Spec.pure s' m') :=
  hm.simS fun r r' _ hr => by
    obtain ⟨rfl, hr⟩ := hr
    have := bool_fixed h hr
    have h' := Sim.ok h this.1
    rw [this.2] at h'
    exact h'

theorem var_then (h : Rel M P f s s') (x : Nat) {g g' : Int → Res (Int × St)} (hg : ∀ a, P a → Sim M P f (g a) (g' (f a))) :
    Sim M P f (var s x >>= g) (var s' x >>= g') :=
  (var_sim h x).simS fun a a' _ ha => by obtain ⟨ha, rfl⟩ := ha; exact hg a ha

theorem prim_sim (h : Rel M P f s s') (fuel : Nat) (p : Prim) : Sim M P f (p.run s fuel) (p.run s' fuel) := by
  cases p with
  | copy x => exact pure_at h (var_sim h x)
  | const a =>
    simp only [Prim.run]
    split
    · rename_i ha
      have := h.fixed ha.1 ha.2
      have h' := Sim.ok h this.1
      rw [this.2] at h'
      exact h'
    · trivial
  | number n => exact makeNumber_sim h n
  | char n => exact makeChar_sim h n
  | cons x y => exact var_then h x fun a ha => var_then h y fun b hb => cons_sim h ha hb
  | car x => exact var_then h x fun a ha => pure_at h (carP_sim h ha)
  | cdr x => exact var_then h x fun a ha => pure_at h (cdrP_sim h ha)
  | setCar x y => exact var_then h x fun a ha => var_then h y fun b hb => setCarX_sim h ha hb
  | setCdr x y => exact var_then h x fun a ha => var_then h y fun b hb => setCdrX_sim h ha hb
  | eq x y => exact var_then h x fun a ha => var_then h y fun b hb => pure_same h (eqP_sim h ha hb)
  | length x => exact var_then h x fun a ha => lengthP_sim h fuel ha
  | plus xs => exact withArgs_sim h xs fun P' f' l t t' h1 h2 _ _ => plus_sim h1 fuel h2
  | minus x xs => exact withArgs_sim h (x :: xs) fun P' f' l t t' h1 h2 _ h4 => minus_sim h1 fuel h2 (h4 (by simp))
  | multiply xs => exact withArgs_sim h xs fun P' f' l t t' h1 h2 _ _ => multiply_sim h1 fuel h2
  | less xs =>
    exact withArgs_sim h xs (p := fun s l => Spec.pure s (lessP s fuel l)) (p' := fun s l => Spec.pure s (lessP s fuel l)) fun P' f' l t t' h1 h2 h3 _ => pure_same h1 (lessP_sim h1 fuel h2 h3)
  | greater xs =>
    exact withArgs_sim h xs (p := fun s l => Spec.pure s (greaterP s fuel l)) (p' := fun s l => Spec.pure s (greaterP s fuel l)) fun P' f' l t t' h1 h2 h3 _ => pure_same h1 (greaterP_sim h1 fuel h2 h3)
  | makeVector k x => exact var_then h x fun a ha => makeVector_sim h k ha
  | vectorRef v i => exact var_then h v fun a ha => vectorRef_sim h i ha
  | vectorSet v i x => exact var_then h v fun a ha => var_then h x fun b hb => vectorSet_sim h i ha hb
  | vectorLength v => exact var_then h v fun a ha => vectorLength_sim h ha

theorem follow_level {d : Int} : ∀ (p : List Move) (a : Int), follow (level d s s') a p = follow s a p
  | [], _ => rfl
  | m :: p, a => by
    rw [follow, follow, show move (level d s s') a m = move s a m from rfl]
    cases move s a m with
    | none => rfl
    | some b => exact follow_level p b

theorem shown_eq (h : Rel M P f s s') {a : Int} (hr : Reach s a) : shown s' (f a) = shown s a := by
  have hi : Iso f (level M.deeper s s') s' := IsoOn.mono h.iso.level fun b hb => h.closed.reach (h.iso.reach_level.1 hb)
  have hr' := h.iso.reach_level.2 hr
  funext p
  unfold shown
  rw [follow_iso hi p hr', follow_level]
  cases hl : follow s a p with
  | none => rfl
  | some b =>
    simp only [Option.map_some]
    rw [view_iso hi (follow_reach p hr' (by rw [follow_level]; exact hl))]
    rfl

/-- Corresponding memories, and the same printed. -/
def Printed (M : Mode) (P : Int → Prop) (f : Int → Int) (p p' : List Shown × St) : Prop := Rel M P f p.2 p'.2 ∧ p'.1 = p.1

theorem op_sim (h : Rel M P f s s') (fuel : Nat) (op : Op) : SimR M P f (Printed M) (op.run s fuel) (op.run s' fuel) := by
  cases op with
  | set d p =>
    refine (prim_sim h fuel p).bind fun P' f' r t t' h1 h2 h3 _ => ?_
    have e1 := h1.iso.sp
    have e2 := h1.iso.stackSize
    dsimp only
    split
    · rw [if_pos (by omega)]
      refine .inr ⟨P', f', _, rfl, ⟨?_, rfl⟩, fun a ha => ⟨ha, rfl⟩⟩
      have h3 := h1.setStack (i := t'.sp + d) h2
      rw [show t'.sp + (d : Int) + M.deeper = t.sp + d by omega] at h3
      exact h3
    · trivial
  | print x =>
    refine (var_sim h x).simS fun a a' e ha => ?_
    obtain ⟨ha, rfl⟩ := ha
    refine .inr ⟨P, f, _, rfl, ⟨h, ?_⟩, fun a ha => ⟨ha, rfl⟩⟩
    have hr : Root s a := by
      unfold var at e
      split at e
      · cases e
        exact .stack (by omega) (by omega)
      · cases e
    simp only [shown_eq h (.root hr)]

/-- A collection of the second memory, which may stop for lack of stack. -/
theorem gc_sim (h : Rel M P f s s') {fuel : Nat} (hf : s'.arena + 2 < fuel) :
    (gc s' fuel = abort ∧ ¬ M.exact) ∨ ∃ g s'', gc s' fuel = ok s'' ∧ Rel M (Reach s) g s s'' := by
  by_cases h5 : 5 ≤ s'.sp
  · obtain ⟨s'', g, e1, e2⟩ := h.gc hf h5
    exact .inr ⟨g, s'', e1, e2⟩
  · refine .inl ⟨?_, fun he => ?_⟩
    · have h5 : ¬ gcFrameSize ≤ s'.sp := by simpa [gcFrameSize] using h5
      simp [Mes.gc, gcPushFrame, assert, h5]
    · have := h.tight he
      have := h.iso.sp
      omega

/-- A run without collections that ends, or stops with an error, and the same run with collections, which may stop for lack of
memory. -/
theorem run_sim (fuel : Nat) : ∀ (ops : List Op) (sched : List Bool) {P : Int → Prop} {f : Int → Int} {s s' : St}, Rel M P f s s' →
    ∀ {m : Res St}, (run fuel [] ops s).2 = m → (∃ k, m = err k) ∨ (∃ t, m = ok t) →
    (¬ M.exact ∧ ∃ o' o'', run fuel sched ops s' = (o', abort) ∧ (run fuel [] ops s).1 = o' ++ o'') ∨
      ∃ m', run fuel sched ops s' = ((run fuel [] ops s).1, m') ∧ (∀ k, m = err k → m' = err k) ∧
        ∀ t, m = ok t → ∃ P f t', m' = ok t' ∧ Rel M P f t t'
  | [], sched, P, f, s, s', h, m, e, hm => by
    simp only [run] at e ⊢
    subst e
    exact .inr ⟨_, rfl, nofun, fun t ht => by cases ht; exact ⟨P, f, s', rfl, h⟩⟩
  | op :: ops, sched, P, f, s, s', h, m, e, hm => by
    have e1 : ((if sched.head? = some true then gc s' (s'.arena + 3).toNat else ok s') = abort ∧ ¬ M.exact) ∨
        ∃ P' f' s'', (if sched.head? = some true then gc s' (s'.arena + 3).toNat else ok s') = ok s'' ∧ Rel M P' f' s s'' := by
      split
      · rcases gc_sim h (fuel := (s'.arena + 3).toNat) (by omega) with h | ⟨g, s'', e1, e2⟩
        · exact .inl h
        · exact .inr ⟨_, g, s'', e1, e2⟩
      · exact .inr ⟨P, f, s', rfl, h⟩
    have e0 : (if ([] : List Bool).head? = some true then gc s (s.arena + 3).toNat else ok s) = ok s := by simp
    rw [run, e0] at e
    rw [run, run, e0]
    rcases e1 with ⟨e1, hn⟩ | ⟨P', f', s'', e1, h'⟩
    · rw [e1]
      exact .inl ⟨hn, [], _, rfl, rfl⟩
    have hop := op_sim h' fuel op
    rw [e1]
    dsimp only at e ⊢
    cases ho : op.run s fuel with
    | ok q =>
      obtain ⟨o1, t1⟩ := q
      rw [ho] at hop e
      rcases hop with ⟨e2, hn⟩ | ⟨P2, f2, ⟨o2, t2⟩, e2, ⟨h2, h3⟩, -⟩
      · rw [e2]
        exact .inl ⟨hn, [], _, rfl, rfl⟩
      · dsimp only at h2 h3
        subst h3
        rw [e2]
        simp only [List.tail_nil] at e ⊢
        rcases run_sim fuel ops sched.tail h2 e hm with ⟨hn, o3, o4, e3, e4⟩ | ⟨m', e3, e4, e5⟩
        · refine .inl ⟨hn, o2 ++ o3, o4, ?_, ?_⟩
          · rw [e3]
          · rw [e4, List.append_assoc]
        · refine .inr ⟨m', ?_, e4, e5⟩
          rw [e3]
    | err k =>
      rw [ho] at hop e
      subst e
      rcases hop with ⟨e2, hn⟩ | e2
      · rw [e2]
        exact .inl ⟨hn, [], _, rfl, rfl⟩
      · rw [e2]
        exact .inr ⟨_, rfl, fun _ e => e, fun _ h => by cases h⟩
    | abort => rw [ho] at e; subst e; rcases hm with ⟨_, h⟩ | ⟨_, h⟩ <;> cases h
    | ub => rw [ho] at e; subst e; rcases hm with ⟨_, h⟩ | ⟨_, h⟩ <;> cases h
    | loop => rw [ho] at e; subst e; rcases hm with ⟨_, h⟩ | ⟨_, h⟩ <;> cases h

/-- Every sound memory corresponds to itself. -/
theorem Rel.refl (hs : Sound s) (hroom : s.free ≤ s.arena + 2) (hcfg : 2 * (s.arena + 2) ≤ s.limit + 1 ∧ 5 ≤ s.sp) :
    Rel ⟨True, s.arena, 0⟩ (Reach s) id s s := by
  have : Img (Reach s) id = Reach s := funext fun y => propext ⟨by rintro ⟨a, ha, rfl⟩; exact ha, fun h => ⟨y, h, rfl⟩⟩
  refine ⟨closed_reach s, by rw [this]; exact closed_reach s, hs, by rw [this]; exact hs, ?_, rfl, hroom, hcfg.1, Int.le_refl _,
    fun _ => ⟨rfl, Int.le_refl _, hroom, hcfg.2, rfl, rfl, rfl⟩⟩
  have hc : ∀ c : Cell, SameCell id c c := fun c => ⟨rfl, by simp, fun _ _ => by simp, fun _ => rfl⟩
  exact ⟨fun a _ => hc _, fun a _ _ i _ => hc _, fun a b _ _ h => h, fun _ _ _ => rfl, rfl, rfl, rfl, rfl, rfl, rfl, rfl, rfl,
    by simp, by simp, fun _ _ _ => by simp, rfl, rfl⟩

/-- A sound memory corresponds to the same memory with another arena. -/
theorem Rel.resized {a l : Int} (hs : Sound s) (hroom : s.free ≤ a + 2) (hcfg : 2 * (a + 2) ≤ l + 1) :
    Rel ⟨False, a, 0⟩ (Reach s) id s { s with arena := a, limit := l } := by
  have : Img (Reach s) id = Reach s := funext fun y => propext ⟨by rintro ⟨a, ha, rfl⟩; exact ha, fun h => ⟨y, h, rfl⟩⟩
  have hroot : ∀ b, Root { s with arena := a, limit := l } b → Root s b := fun b hb => by
    cases hb with
    | fixed h h' => exact .fixed h h'
    | stack h h' => exact .stack (s := s) h h'
    | symbols => exact .symbols (s := s)
    | macros => exact .macros (s := s)
    | ports => exact .ports (s := s)
    | m0 => exact .m0 (s := s)
    | r0 => exact .r0 (s := s)
    | r1 => exact .r1 (s := s)
    | r2 => exact .r2 (s := s)
    | r3 => exact .r3 (s := s)
  have hc := closed_reach s
  refine ⟨hc, by rw [this]; exact ⟨fun b hb => .root (hroot b hb), hc.car, hc.cdr, hc.element⟩, hs, ?_, ?_, rfl, hroom, hcfg,
    Int.le_refl _, fun h => h.elim⟩
  · rw [this]
    exact ⟨hs.base, hs.fixed, hs.inside, hs.disjoint, hs.head, hs.length, hs.plain, hs.bytes, hs.blank, hs.whole, hs.sp⟩
  have hc : ∀ c : Cell, SameCell id c c := fun c => ⟨rfl, by simp, fun _ _ => by simp, fun _ => rfl⟩
  exact ⟨fun a _ => hc _, fun a _ _ i _ => hc _, fun a b _ _ h => h, fun _ _ _ => rfl, rfl, rfl, rfl, rfl, rfl, rfl, rfl, rfl,
    by simp, by simp, fun _ _ _ => by simp, rfl, rfl⟩

end Mes.Gc
