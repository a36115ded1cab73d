import Verif.Proof.MacroExpand
/-
Loading programs.
-/
namespace Mes
open Res Spec Gc

variable {s s' s0 : St} {W W' : Ghost} {mes : Bool} {σ σ' : Store} {N : Idents} {ρ : Locals} {K : Calls} {d k : Nat}

/-! ### Programs in memory -/

/-- The first cell of a form. -/
theorem Spec.IsTop.first {c : Int} {f : Toplevel} {L : List Int} (ht : IsTop s W mes N c f L) (h : Later W s W' s')
    (hL : ∀ a ∈ L, W'.src a ∧ s'.cell a = s.cell a) : s'.cell c = s.cell c := by
  cases ht with
  | expr he =>
    cases he with
    | const hd _ hm => exact h.keep hd.valid hm
    | quote hc => exact hc.cell_eq h
    | var hx => exact h.keep hx.text.valid hx.fixed
    | global hg => exact h.keep hg.valid hg.fixed
    | ite hc | ifOnly hc | lam hc | app hc | begin hc | set hc => exact (hL _ (List.mem_cons_self ..)).2
  | define | function => exact (hL _ (List.mem_cons_self ..)).2

theorem Spec.IsProgram.bound {p : Int} {fs : List Toplevel} {L : List Int} (h : IsProgram s W mes N p fs L) : ∀ a ∈ L, SrcPair s W a := by
  induction h with
  | nil => exact nofun
  | form _ h _ _ _ ih => exact fun a ha => (List.mem_append.1 ha).elim (h.bound a) (ih a)
  | block _ _ _ _ _ h _ _ _ ih ih' =>
    exact fun a ha => (List.mem_append.1 ha).elim (h.bound a) fun ha => (List.mem_append.1 ha).elim (ih a) (ih' a)

/-- A program stays when its pairs do. -/
theorem Spec.IsProgram.later {p : Int} {fs : List Toplevel} {L : List Int} (hp : IsProgram s W mes N p fs L) (h : Later W s W' s')
    (hL : ∀ a ∈ L, W'.src a ∧ s'.cell a = s.cell a) : IsProgram s' W' mes N p fs L := by
  induction hp with
  | nil => exact .nil
  | form hp ht hl hb _ ih =>
    have hL1 := fun a ha => hL a (List.mem_append_left _ ha)
    have e := hp.cell_eq h
    refine .form (hp.later h) (by rw [e]; exact ht.later h hL1) ?_ ?_ (by rw [e]; exact ih fun a ha => hL a (List.mem_append_right _ ha))
    · rw [e, ht.first h hL1]; exact hl
    · rw [e, ht.first h hL1]; exact hb
  | block hp hc hh hq hp' ht hl _ _ ih ih' =>
    have hL1 := fun a ha => hL a (List.mem_append_left _ ha)
    have e := hp.cell_eq h
    have e1 := hc.cell_eq h
    have e2 := hp'.cell_eq h
    refine .block (hp.later h) (by rw [e]; exact hc.later h) (by rw [e, e1]; exact hh) (by rw [e, e1]; exact hq) (hp'.later h)
      (by rw [e2]; exact ht.later h hL1) ?_ (by rw [e2]; exact ih fun a ha => hL a (List.mem_append_right _ (List.mem_append_left _ ha)))
      (by rw [e]; exact ih' fun a ha => hL a (List.mem_append_right _ (List.mem_append_right _ ha)))
    rw [e2, ht.first h hL1]; exact hl

theorem Spec.IsProgram.grow {p : Int} {fs : List Toplevel} {L : List Int} (hp : IsProgram s W mes N p fs L) (h : Grow s s') : IsProgram s' W mes N p fs L :=
  hp.later (h.later W) fun a ha => ⟨(hp.bound a ha).src, h.same a (hp.bound a ha).valid.2⟩

theorem Spec.IsTop.grow {c : Int} {f : Toplevel} {L : List Int} (hp : IsTop s W mes N c f L) (h : Grow s s') : IsTop s' W mes N c f L :=
  hp.later (h.later W) fun a ha => ⟨(hp.bound a ha).src, h.same a (hp.bound a ha).valid.2⟩

theorem Spec.IsProgram.now {p : Int} {fs : List Toplevel} {L : List Int} (C : List Int) (h : IsProgram s W mes N p fs L) : IsProgram s (W.now C) mes N p fs L := by
  induction h with
  | nil => exact .nil
  | form hp ht hl hb _ ih => exact .form hp (ht.now C) hl hb ih
  | block hp hc hh hq hp' ht hl _ _ ih ih' => exact .block hp hc hh hq hp' (ht.now C) hl ih ih'

theorem Spec.IsProgram.ne {p : Int} {fs : List Toplevel} {L : List Int} (h : IsProgram s W mes N p fs L) (hf : fs ≠ []) : p ≠ c_nil := by
  cases h with
  | nil => exact absurd rfl hf
  | form hp | block hp => exact hp.ne

/-- The spine of a program, and a copy of it in front of another program. -/
theorem Spec.IsProgram.chain {x : Int} {fs : List Toplevel} {L : List Int} (h : IsProgram s W mes N x fs L) :
    ∃ as, Chain s x as c_nil ∧ as.length ≤ fs.length ∧ ∀ (s' : St) (y r : Int) (bs : List Int) (gs : List Toplevel) (L' : List Int), Grow s s' →
      Chain s' r bs y → cars s' bs = cars s as → (∀ b ∈ bs, ¬ W.chg b) → IsProgram s' W mes N y gs L' → IsProgram s' W mes N r (fs ++ gs) (L ++ L') := by
  induction h with
  | nil =>
    refine ⟨[], .nil _, Nat.le_refl _, fun s' y r bs gs L' hl hc he _ hy => ?_⟩
    cases hc with
    | nil => exact hy
    | cons => simp at he
  | @form p f fs L L1 hp ht hl hb h ih =>
    obtain ⟨as, h1, h2, h3⟩ := ih
    refine ⟨p :: as, .cons hp.ne hp.valid hp.tag h1, by simp only [List.length_cons]; omega, fun s' y r bs gs L' hg hc heq hch hy => ?_⟩
    cases hc with
    | nil => simp at heq
    | @cons _ _ bs hne hv htg hc =>
      simp only [List.map_cons, List.cons.injEq] at heq
      have e := ht.valid
      rw [List.append_assoc]
      refine .form ⟨hne, hv, htg, hch _ (by simp)⟩ (by rw [heq.1]; exact ht.grow hg) ?_ ?_ (h3 s' y _ bs gs L' hg hc heq.2 (fun b hb => hch b (by simp [hb])) hy)
      · rw [heq.1, hg.same _ e.2]; exact hl
      · rw [heq.1, hg.same _ e.2]; exact hb
  | @block p q f fs fs' L L1 L2 hp hc hh hq hp' ht hl h h' ih ih' =>
    obtain ⟨as, h1, h2, h3⟩ := ih'
    refine ⟨p :: as, .cons hp.ne hp.valid hp.tag h1, by simp only [List.length_cons, List.length_append]; omega, fun s' y r bs gs L' hg hcc heq hch hy => ?_⟩
    cases hcc with
    | nil => simp at heq
    | @cons _ _ bs hne hv htg hcc =>
      simp only [List.map_cons, List.cons.injEq] at heq
      rw [List.append_assoc, List.append_assoc, List.cons_append, List.append_assoc]
      have e := ht.valid
      have e1 := hg.same _ hc.valid.2
      have e2 := hg.same _ hp'.valid.2
      refine .block ⟨hne, hv, htg, hch _ (by simp)⟩ (by rw [heq.1]; exact hc.later (hg.later W)) (by rw [heq.1, e1]; exact hh) (by rw [heq.1, e1]; exact hq) (hp'.later (hg.later W))
        (by rw [e2]; exact ht.grow hg) ?_ (by rw [e2]; exact h.grow hg) (h3 s' y _ bs gs L' hg hcc heq.2 (fun b hb => hch b (by simp [hb])) hy)
      rw [e2, hg.same _ e.2]; exact hl

/-! ### Global variables -/

section
variable {δ : Int → Int → List Value → Value → Prop}

mutual
theorem Spec.Eval.globals {d : Nat} {ρ : Locals} {σ σ' : Store} {e : Expr} {v : Value} : Eval mes δ d ρ σ e v σ' → σ'.globals = σ.globals
  | .const _ => rfl
  | .quote _ => rfl
  | .var _ _ => rfl
  | .iteTrue h _ h' => h'.globals.trans h.globals
  | .iteFalse h h' => h'.globals.trans h.globals
  | .ifTrue h _ h' => h'.globals.trans h.globals
  | .ifFalse h => h.globals
  | .lam .. => rfl
  | .app _ ha hf hc => hc.globals.trans (hf.globals.trans ha.globals)
  | .app2 _ _ h0 ha hf hc => hc.globals.trans (hf.globals.trans (ha.globals.trans h0.globals))
  | .begin h => h.globals
  | .set h _ => h.globals
theorem Spec.EvalArgs.globals {d : Nat} {ρ : Locals} {σ σ' : Store} {es : List Expr} {vs : List Value} : EvalArgs mes δ d ρ σ es vs σ' → σ'.globals = σ.globals
  | .nil => rfl
  | .cons h hs => hs.globals.trans h.globals
theorem Spec.EvalSeq.globals {d : Nat} {ρ : Locals} {σ σ' : Store} {es : List Expr} {v : Value} : EvalSeq mes δ d ρ σ es v σ' → σ'.globals = σ.globals
  | .one h => h.globals
  | .cons h hs => hs.globals.trans h.globals
theorem Spec.Call.globals {d : Nat} {σ σ' : Store} {f : Value} {vs : List Value} {v : Value} : Call mes δ d σ f vs v σ' → σ'.globals = σ.globals
  | .prim _ => rfl
  | .clo _ h => h.globals
  | .apply h => h.globals
end

/-- Only the variable of a definition is new. -/
theorem Spec.EvalForm.globals {f : Toplevel} {v : Value} {y : Int} (h : EvalForm mes δ d σ f v σ') (hy : ∀ e, f ≠ .define y e) : σ'.globals y = σ.globals y := by
  cases h with
  | expr h => rw [h.globals]
  | @define _ _ x e _ _ h =>
    show _ = _
    rw [h.globals, declare_globals fun hc => hy e (by rw [hc])]

theorem Spec.IsTop.no_form {c y : Int} {f : Toplevel} {L : List Int} (h : IsTop s W mes N c f L) (hy : y ∈ formNames) : ∀ e, f ≠ .define y e := by
  rintro e rfl
  cases h with
  | define _ _ _ _ _ _ hf => exact hf hy
  | function _ _ _ _ _ _ _ _ hf => exact hf hy

end

/-! ### Macros -/

theorem Spec.MacroFree.later {n : Nat} (h : MacroFree mes σ W n N s) (hl : Later W s W' s') (hw : World s' W' mes σ') (hm : s'.macros = s.macros) :
    MacroFree mes σ' W' n N s' :=
  have ht := h.macros.table
  ⟨⟨hw, ht.later hl hm, h.macros.portable.1.later hl, h.macros.portable.2.later ht hl hm⟩, fun x hx => (h.names x hx).later ht hl hm,
    fun x hx => ⟨(h.heads x hx).1.later hl, (h.heads x hx).2.later ht hl hm⟩⟩

theorem Spec.NotMacro.now {n : Nat} {x : Int} (h : NotMacro s W n x) (L : List Int) : NotMacro s (W.now L) n x :=
  ⟨h.valid, h.tag, h.fixed, h.none.imp id fun ⟨h1, h2⟩ => ⟨h1, h2.now L⟩⟩

theorem Spec.MacroFree.now {n : Nat} (h : MacroFree mes σ W n N s) (L : List Int) : MacroFree mes σ (W.now L) n N s :=
  have ht := h.macros.table
  ⟨⟨h.macros.world.now L, ⟨ht.valid, ht.tag, ht.length, ht.fixed, ht.size, ht.sfixed, ht.rvalid, ht.rtag, ht.rfixed, ht.vvalid, ht.vtag, ht.vlength,
    ht.vfixed, ht.pos, ht.small⟩, h.macros.portable.1.now L, h.macros.portable.2.now L⟩, fun x hx => (h.names x hx).now L,
    fun x hx => ⟨(h.heads x hx).1.now L, (h.heads x hx).2.now L⟩⟩

/-! ### One form -/

theorem Spec.ProgramPre.now {n : Nat} (h : ProgramPre mes σ W n N s) (L : List Int) : ProgramPre mes σ (W.now L) n N s :=
  ⟨h.free.now L, h.scope.now L, h.key, h.names, h.forms⟩

theorem Spec.ProgramPre.later {n : Nat} (h : ProgramPre mes σ W n N s) (hl : Later W s W' s') (hw : World s' W' mes σ') (hm : s'.macros = s.macros)
    (h0 : s'.r0 = s.r0) (hg : ∀ x ∈ formNames, σ'.globals x = σ.globals x) : ProgramPre mes σ' W' n N s' := by
  have hs := h.scope.later hl
  refine ⟨h.free.later hl hw hm, by rw [h0]; exact hs, ?_, h.names, fun x hx => ⟨(h.forms x hx).1, by rw [hg x hx]; exact (h.forms x hx).2⟩⟩
  have e := h.scope.pair.cell_eq hl
  rw [h0, e, hl.car _ h.scope.valid.2 h.scope.tag h.scope.src]
  exact h.key

/-- The next form of a program, with the forms of `(begin …)` put in front of the rest. -/
theorem load_start {f : Toplevel} {fs : List Toplevel} {LL : List Int} (hr : Ready s (fs.length + 1 + k) (d + 1)) (hw : World s W mes σ)
    (h : IsProgram s W mes N s.r1 (f :: fs) LL) : ∃ s1 L L', LL = L ++ L' ∧ Adv W s W s1 (fs.length + 1) ∧ Grow s s1 ∧ s1.r0 = s.r0 ∧
      FixedPair s1 W.chg s1.r1 ∧ IsTop s1 W mes N (s1.cell s1.r1).car f L ∧ IsProgram s1 W mes N (s1.cell s1.r1).cdr fs L' ∧
      ∀ x gp mp, Walk False K ⟨.beginExpandWhile, s, x, gp, mp⟩
        ⟨.macroExpand, s1.pushed (s1.cell s1.r1).car s1.r1 s1.r0 c_vm_begin_expand_macro, x, gp, mp⟩ := by
  generalize hff : f :: fs = ff at h
  generalize hpp : s.r1 = pp at h
  cases h with
  | nil => cases hff
  | @form p _ _ L L' hp h hl hb hs =>
    cases hff
    subst hpp
    refine ⟨s, L, L', rfl, ⟨.refl s, .refl W s, by omega⟩, .refl s, rfl, hp, h, hs, fun x gp mp => .one (fun q => q.elim) fun fuel => ?_⟩
    simp only [step, hr.gcCheck, ok_bind, St.rd_ok hp.valid, hp.tag, St.rd_ok h.valid, if_true]
    rw [if_neg hb]
    simp only [ok_bind, St.rd_ok hp.valid, St.rd_ok h.valid, if_neg hl, hr.pushCc]
  | @block p q _ gs gs' L L1 L2 hp hc hh hq hp' h hl hs hs' =>
    cases hff
    subst hpp
    have hlen : gs.length + 1 ≤ (gs ++ gs').length + 1 := by simp
    obtain ⟨as, a1, a2, a3⟩ := hs.chain
    have hch : Chain s q (q :: as) c_nil := .cons hp'.ne hp'.valid hp'.tag a1
    obtain ⟨r, s1, bs, g1, g2, g3, g4, g5, g6⟩ := append2_copy (y := (s.cell s.r1).cdr) hch (hr.room.mono (by simp only [List.length_cons]; omega))
    simp only [List.length_cons] at g1 g3
    have hnc : ∀ b ∈ bs, ¬ W.chg b := fun b hb hc => by have := g6 b hb; have := hw.below b hc; omega
    have hal := alike_r1 s1 r
    have adv : Adv W s W { s1 with r1 := r } ((gs ++ gs').length + 1) :=
      ⟨g2.keeps.trans (hal.adv W).keeps, (g2.grow.trans hal.grow).later W, by show s1.free ≤ _; omega⟩
    have hr1 : Ready { s1 with r1 := r } k (d + 1) := hr.adv adv (by omega)
    have hv : s.Valid (s.cell q).car := h.valid
    have e := g2.grow.same _ hv.2
    cases g4 with
    | nil => simp at g5
    | @cons _ _ bs hne hvr htg hc' =>
      simp only [List.map_cons, List.cons.injEq] at g5
      refine ⟨{ s1 with r1 := r }, L, L1 ++ L2, rfl, adv, g2.grow.trans hal.grow, g2.r0, ⟨hne, hvr, htg, hnc _ (List.mem_cons_self ..)⟩, ?_, ?_, fun x gp mp => ?_⟩
      · show IsTop _ _ _ _ (s1.cell r).car _ _
        rw [g5.1]
        exact h.grow (g2.grow.trans hal.grow)
      · exact (a3 s1 _ _ bs gs' L2 g2.grow hc' g5.2 (fun b hb => hnc b (List.mem_cons_of_mem _ hb)) (hs'.grow g2.grow)).grow hal.grow
      · refine .fuel (fun q => q.elim) (as.length + 2) fun fuel hf => ?_
        have q1 : (({ s1 with r1 := r } : St).rd r) = ok (s1.cell r) := St.rd_ok (s := { s1 with r1 := r }) hvr
        have q2 : (({ s1 with r1 := r } : St).rd (s.cell q).car) = ok (s.cell (s.cell q).car) := by
          rw [← e]; exact St.rd_ok (s := { s1 with r1 := r }) (g2.grow.valid hv)
        simp only [step, hr.gcCheck, ok_bind, St.rd_ok hp.valid, hp.tag, St.rd_ok hc.valid, hc.tag, hh, and_self, if_true, hq, g1 fuel (by omega), q1, g5.1, q2,
          if_neg hl, hr1.pushCc]

/-- A form is ready to be evaluated: it was looked through for macros, and its variables are expanded. -/
structure Prepared (mes : Bool) (k d : Nat) (σ : Store) (n : Nat) (N : Idents) (f : Toplevel) (fs : List Toplevel) (L L' : List Int) (W : Ghost) (s : St)
    (W2 : Ghost) (s3 : St) : Prop where
  keep : SameStack s s3
  le : s.free ≤ s3.free
  free : s3.free ≤ s.free + ((topMacroCells f + topCells f : Nat) : Int)
  ready : Ready (s3.pushed (s.cell s.r1).car s.r1 s.r0 c_vm_begin_expand_eval) k d
  pre : ProgramPre mes σ W2 n N s3
  load : LoadPre mes σ W2 (s3.pushed (s.cell s.r1).car s.r1 s.r0 c_vm_begin_expand_eval) N L
  top : IsTop (s3.pushed (s.cell s.r1).car s.r1 s.r0 c_vm_begin_expand_eval) W2 mes N (s.cell s.r1).car f L
  rest : IsProgram (s3.pushed (s.cell s.r1).car s.r1 s.r0 c_vm_begin_expand_eval) W2 mes N (s.cell s.r1).cdr fs L'
  fixed : FixedPair s3 W2.chg s.r1
  cell : s3.cell s.r1 = s.cell s.r1
  cur : ∀ a ∈ L', ¬ W2.cur a
  kept : ∀ a, s.Valid a → ¬ W.chg a → s3.Valid a ∧ s3.cell a = s.cell a ∧ ¬ W2.chg a

/-- One form: looking for macros, expanding its variables. -/
theorem load_expand {f : Toplevel} {fs : List Toplevel} {L L' : List Int} {n : Nat}
    (hr : Ready s (topMacroCells f + (topCells f + k)) (max (topMacroDepth f) d + 1)) (hp : ProgramPre mes σ W n N s)
    (hf : FixedPair s W.chg s.r1) (ht : IsTop s W mes N (s.cell s.r1).car f L) (hs : IsProgram s W mes N (s.cell s.r1).cdr fs L')
    (hL : L.Nodup) (hL' : ∀ a ∈ L', ¬ W.cur a ∧ a ∉ L) (x : Int) (gp mp : Option Bool) :
    ∃ W2 s3, Walk False K ⟨.macroExpand, s.pushed (s.cell s.r1).car s.r1 s.r0 c_vm_begin_expand_macro, x, gp, mp⟩
        ⟨.eval, s3.pushed (s.cell s.r1).car s.r1 s.r0 c_vm_begin_expand_eval, x, gp, mp⟩ ∧ Prepared mes k d σ n N f fs L L' W s W2 s3 := by
  -- macros
  have hp1 := grow_pushed s (s.cell s.r1).car s.r1 s.r0 c_vm_begin_expand_macro
  have kp1 : Consts s (s.pushed (s.cell s.r1).car s.r1 s.r0 c_vm_begin_expand_macro) := ⟨rfl, rfl, rfl, rfl, rfl⟩
  obtain ⟨s1, w1, w2, w3, w4, w5⟩ := same_top (K := K) hp.free ht _ hp1 kp1 rfl ((hr.pushed ..).mono (by omega) (by omega)) x gp mp
  have bk := w2.back
  have f1 : (s.pushed (s.cell s.r1).car s.r1 s.r0 c_vm_begin_expand_macro).free = s.free := rfl
  have g1 := hp1.trans w3
  have hr1 := hr.keeps (k' := topCells f + k) bk.keeps g1.le (by omega) (Nat.le_refl _)
  have c1 := g1.same _ hf.valid.2
  have hal := alike_r1 s1 s1.r2
  have g2 := g1.trans hal.grow
  have ks2 : SameStack s { s1 with r1 := s1.r2 } := bk.keeps.trans (hal.adv W).keeps
  have hr2 : Ready { s1 with r1 := s1.r2 } (topCells f + k) (max (topMacroDepth f) d + 1) := hr1.keeps (j := 0) (hal.adv W).keeps hal.grow.le (by show s1.free ≤ s1.free + _; omega) (by omega)
  have e20 : ({ s1 with r1 := s1.r2 } : St).r0 = s.r0 := bk.r0
  have e21 : ({ s1 with r1 := s1.r2 } : St).r1 = s.r1 := bk.r2
  have q1 : s1.Valid s1.r2 := by rw [bk.r2]; exact g1.valid hf.valid
  have q2 : (s1.cell s1.r2).car = s1.r1 := by rw [bk.r2, c1, w4]
  have hstep1 : ∀ F s3 s4, (∀ fuel, F ≤ fuel → expandVariable fuel { s1 with r1 := s1.r2 } (s.cell s.r1).car c_nil true = ok s3) → s3.Valid s3.r1 →
      pushCc s3 (s3.cell s3.r1).car s3.r1 s3.r0 c_vm_begin_expand_eval = ok s4 →
      Walk False K ⟨.beginExpandMacro, s1, x, gp, mp⟩ ⟨.eval, s4, x, gp, mp⟩ := fun F s3 s4 h1 h2 h3 => by
    refine .fuel (fun q => q.elim) F fun fuel hfu => ?_
    simp only [step, St.car_ok q1, ok_bind, q2, ne_eq, not_true, if_false]
    rw [show s1.r1 = (s.cell s.r1).car from w4, h1 fuel hfu]
    simp only [ok_bind, St.car_ok h2, h3]
  have f2 : ({ s1 with r1 := s1.r2 } : St).free = s1.free := rfl
  have hw2 : World { s1 with r1 := s1.r2 } W mes σ := hp.free.macros.world.grow g2 (by rw [ks2.consts.m0])
  have pre2 := hp.later (g2.later W) hw2 ks2.consts.macros e20 fun _ _ => rfl
  generalize ({ s1 with r1 := s1.r2 } : St) = s2 at *
  -- variables
  have hL2 : ∀ a ∈ L, (W.now L).src a ∧ (W.now L).cur a := fun a ha => ⟨(ht.bound a ha).src, .inr ha⟩
  have kl := know_later (W.now L) s2 (pre2.now L).free.macros.world.glob
  have hw2' := know_world (pre2.now L).free.macros.world
  have pre2' := (pre2.now L).later (σ' := σ) kl hw2' rfl rfl fun _ _ => rfl
  have ht2 : IsTop s2 ((W.now L).know σ.globals) mes N (s.cell s.r1).car f L :=
    ((ht.grow g2).now L).later kl fun a ha => ⟨(hL2 a ha).1, rfl⟩
  have hs2 : IsProgram s2 ((W.now L).know σ.globals) mes N (s.cell s.r1).cdr fs L' :=
    ((hs.grow g2).now L).later kl fun a ha => ⟨(hs.bound a ha).src, rfl⟩
  have hf2 : FixedPair s2 ((W.now L).know σ.globals).chg s.r1 := (hf.later (g2.later W) : FixedPair s2 W.chg s.r1)
  have hcur2 : ∀ a ∈ L', ¬ ((W.now L).know σ.globals).cur a := fun a ha hc => hc.elim (hL' a ha).1 (hL' a ha).2
  have hcur2' : ∀ a ∈ L, ((W.now L).know σ.globals).src a ∧ ((W.now L).know σ.globals).cur a := hL2
  have hglob : ((W.now L).know σ.globals).glob = σ.globals := rfl
  have hchg2 : ((W.now L).know σ.globals).chg = W.chg := rfl
  generalize (W.now L).know σ.globals = W2 at *
  have hpre : ExpandPre mes σ W2 s2 N L c_nil [] none (topCells f) :=
    { world := hw2'
      glob := hglob
      env := pre2'.scope.whole
      formals := .nil
      free := fun x _ => pre2'.names x
      forms := fun x hx => ⟨(pre2'.free.heads x (List.mem_cons_of_mem _ hx)).1, pre2'.forms x hx⟩
      nodup := hL
      cur := fun a ha => (hcur2' a ha).2
      room := hr2.room.mono (by omega) }
  obtain ⟨F, s3, a1, a2, a3⟩ := expand_top ht2 hpre
  have adv3 := a2.adv hw2' hcur2'
  have hw3 := a2.world hw2' hcur2' fun a ha => (ht2.bound a ha).tag
  have pre3 := pre2'.later adv3.later hw3 a2.frame.consts.macros a2.frame.r0 fun _ _ => rfl
  have hf3 := hf2.later adv3.later
  have c3 : s3.cell s.r1 = s.cell s.r1 := by rw [hf2.cell_eq adv3.later, g2.same _ hf.valid.2]
  have hs3 : IsProgram s3 W2 mes N (s.cell s.r1).cdr fs L' := hs2.later adv3.later fun a ha =>
    ⟨(hs2.bound a ha).src, a2.frame.same a (hs2.bound a ha).valid.2 fun hc => (hL' a ha).2 hc⟩
  have e30 : s3.r0 = s.r0 := by rw [a2.frame.r0, e20]
  have e31 : s3.r1 = s.r1 := by rw [a2.frame.r1, e21]
  have hr3 := hr2.keeps (j := topCells f) (k' := k) adv3.keeps adv3.later.le adv3.free (Nat.le_refl _)
  -- evaluation
  have hp4 := grow_pushed s3 (s.cell s.r1).car s.r1 s.r0 c_vm_begin_expand_eval
  have pl4 := hp4.later W2
  have pre4 : ProgramPre mes σ W2 n N (s3.pushed (s.cell s.r1).car s.r1 s.r0 c_vm_begin_expand_eval) :=
    pre3.later pl4 (hw3.grow hp4 rfl) rfl e30.symm fun _ _ => rfl
  have ht4 := a3.grow hp4
  have hs4 := hs3.grow hp4
  have lp : LoadPre mes σ W2 (s3.pushed (s.cell s.r1).car s.r1 s.r0 c_vm_begin_expand_eval) N L :=
    { world := pre4.free.macros.world
      scope := pre4.scope
      key := pre4.key
      free := pre4.names
      forms := fun x hx => ⟨(pre4.free.heads x (List.mem_cons_of_mem _ hx)).1, pre4.forms x hx⟩
      nodup := hL
      cur := fun a ha => (hcur2' a ha).2 }
  refine ⟨W2, s3, w1.trans (.trans (.dispatch (l := .beginExpandMacro) (by rw [bk.r3]; decide)) (hstep1 F s3 _ a1 (by rw [e31]; exact hf3.valid) ?_)), ?_⟩
  · rw [e31, c3, e30]; exact hr3.pushCc ..
  have fr3 := adv3.free
  have le3 := adv3.later.le
  have le2 := g2.le
  exact { keep := ks2.trans adv3.keeps, le := by omega, free := by omega, ready := (hr3.pushed ..).mono (Nat.le_refl _) (by omega), pre := pre3, load := lp, top := ht4,
          rest := hs4, fixed := hf3, cell := c3, cur := hcur2
          kept := fun a h1 h2 => ⟨adv3.later.valid (g2.valid h1), by rw [adv3.later.keep (g2.valid h1) (hchg2 ▸ h2), g2.same _ h1.2],
            adv3.later.fixed (g2.valid h1) (hchg2 ▸ h2)⟩ }

/-- One form: looking for macros, expanding its variables, evaluating it. -/
theorem load_form {δ : Int → Int → List Value → Value → Prop} {f : Toplevel} {fs : List Toplevel} {L L' : List Int} {n : Nat} {v : Value} (hev : EvalForm mes δ d σ f v σ')
    (hok : SourceOk K mes k d σ f v σ') (hr : Ready s (topMacroCells f + (topCells f + k)) (max (topMacroDepth f) d + 1)) (hp : ProgramPre mes σ W n N s)
    (hf : FixedPair s W.chg s.r1) (ht : IsTop s W mes N (s.cell s.r1).car f L) (hs : IsProgram s W mes N (s.cell s.r1).cdr fs L')
    (hL : L.Nodup) (hL' : ∀ a ∈ L', ¬ W.cur a ∧ a ∉ L) (x : Int) (gp mp : Option Bool) :
    ∃ W' s' x' gp' mp', Walk False K ⟨.macroExpand, s.pushed (s.cell s.r1).car s.r1 s.r0 c_vm_begin_expand_macro, x, gp, mp⟩ ⟨.beginExpandLoop, s', x', gp', mp'⟩ ∧
      SameStack s s' ∧ s.free ≤ s'.free ∧ s'.free ≤ s.free + ((topMacroCells f + (topCells f + k) : Nat) : Int) ∧ IsVal s' W' mes x' v ∧
      ProgramPre mes σ' W' n N s' ∧ IsProgram s' W' mes N s'.r1 fs L' ∧ (∀ a ∈ L', ¬ W'.cur a) ∧
      ∀ a, s.Valid a → ¬ W.chg a → s'.Valid a ∧ s'.cell a = s.cell a ∧ ¬ W'.chg a := by
  obtain ⟨W2, s3, w1, P⟩ := load_expand (K := K) hr hp hf ht hs hL hL' x gp mp
  have hp4 := grow_pushed s3 (s.cell s.r1).car s.r1 s.r0 c_vm_begin_expand_eval
  have pl4 := hp4.later W2
  obtain ⟨W5, s5, x5, gp5, mp5, b1, b2, b3, b4, b5, b6⟩ := hok _ _ N L P.ready P.load P.top x gp mp
  have bk5 := b2.back
  have f4 : (s3.pushed (s.cell s.r1).car s.r1 s.r0 c_vm_begin_expand_eval).free = s3.free := rfl
  have hl5 := pl4.trans b3
  have hf5 := P.fixed.later hl5
  have c5 : s5.cell s.r1 = s.cell s.r1 := by rw [P.fixed.cell_eq hl5, P.cell]
  have hs5 : IsProgram s5 W5 mes N (s.cell s.r1).cdr fs L' := P.rest.later b3 fun a ha => by
    have h1 := (P.rest.bound a ha)
    have h2 := b3.rest a h1.valid.2 h1.src (P.cur a ha)
    exact ⟨h2, b3.kept a h1.valid.2 h2 (P.cur a ha)⟩
  have pre5 := P.pre.later hl5 b4 bk5.keeps.consts.macros bk5.r0 fun y hy => hev.globals (ht.no_form hy)
  have hal5 := alike_r1 s5 (s.cell s.r1).cdr
  have pl6 := (hal5.adv W5).later
  have keep : SameStack s s5 := P.keep.trans bk5.keeps
  have fr3 := P.free
  have le3 := P.le
  have le5 := hl5.le
  refine ⟨W5, { s5 with r1 := (s.cell s.r1).cdr }, s5.r1, gp5, mp5, ?_, keep.trans (hal5.adv W5).keeps, by show s.free ≤ s5.free; omega,
    by show s5.free ≤ _; omega, b6.later pl6, pre5.later pl6 (hal5.world b4) rfl rfl fun _ _ => rfl, hs5.grow hal5.grow, fun a ha => ?_, fun a h1 h2 => ?_⟩
  · refine w1.trans (b1.trans (.trans (.dispatch (l := .beginExpandEval) (by rw [bk5.r3]; decide)) (.one (fun q => q.elim) fun fuel => ?_)))
    have q5 : s5.Valid s5.r2 := by rw [bk5.r2]; exact hf5.valid
    have q6 : (s5.cell s5.r2).cdr = (s.cell s.r1).cdr := by rw [bk5.r2, c5]
    simp only [step, St.cdr_ok q5, q6, ok_bind]
  · rw [b3.cur]; exact P.cur a ha
  · obtain ⟨u1, u2, u3⟩ := P.kept a h1 h2
    exact ⟨hl5.valid u1, by rw [← u2]; exact hl5.keep u1 u3, hl5.fixed u1 u3⟩

/-- The number of cells for a program. -/
def LoadOk (K : Calls) (mes : Bool) (k d : Nat) (σ : Store) (u : Value) (fs : List Toplevel) (v : Value) (σ' : Store) : Prop :=
  ∀ W s N n L, Ready s k d → ProgramPre mes σ W n N s → IsProgram s W mes N s.r1 fs L → L.Nodup → (∀ a ∈ L, ¬ W.cur a) →
    ∀ x gp mp, IsVal s W mes x u → ∃ W' s' x' gp' mp',
    Walk False K ⟨.beginExpandLoop, s, x, gp, mp⟩ ⟨.dispatch, s', x', gp', mp'⟩ ∧ Popped s s' ∧ World s' W' mes σ' ∧ IsVal s' W' mes s'.r1 v

/-- The frames for looking for macros. -/
def programDepth : List Toplevel → Nat
  | [] => 0
  | f :: fs => max (topMacroDepth f) (programDepth fs)

theorem load {δ : Int → Int → List Value → Value → Prop} (hK : Implements K.builtin mes δ) {u v : Value} {fs : List Toplevel}
    (h : Loads mes δ d σ u fs v σ') : ∃ k, LoadOk K mes k (max (programDepth fs) d + 1) σ u fs v σ' := by
  induction h with
  | nil =>
    refine ⟨0, fun W s N n L hr hp hs _ _ x gp mp hx => ?_⟩
    generalize hpp : s.r1 = pp at hs
    cases hs
    have hal := alike_r1 s x
    have hr' : Ready { s with r1 := x } 0 0 := hr.keeps (j := 0) (k' := 0) (keeps_reg s x) hal.grow.le (by show s.free ≤ s.free + _; omega) (by omega) |>.mono (Nat.le_refl _) (by omega)
    obtain ⟨W8, s8, y8, n1, n2, n3, n4, n5, n6⟩ := Sub.retVal (mv := False) (K := K) hr' (hal.world hp.free.macros.world) (hx.later (hal.adv W).later) x gp mp
    refine ⟨W8, s8, y8, gp, mp, .trans ?_ n1, (keeps_reg s x).popped n2, n4, n6⟩
    refine .one (fun q => q.elim) fun fuel => ?_
    simp only [step, hpp, if_true]
  | @cons σ₁ σ₂ σ₃ v₁ v₂ v₃ f fs hf hs ih =>
    obtain ⟨k2, ih⟩ := ih
    obtain ⟨k1, h1⟩ := source hK hf
    refine ⟨fs.length + 1 + (topMacroCells f + (topCells f + k1) + k2), fun W s N n L hr hp hpr hnd hcur x gp mp hx => ?_⟩
    have hdep : programDepth (f :: fs) = max (topMacroDepth f) (programDepth fs) := rfl
    obtain ⟨s1, L1, L2, rfl, b1, b2, b3, b4, b5, b6, b7⟩ := load_start (K := K) hr hp.free.macros.world hpr
    have hr1 := hr.adv (k' := topMacroCells f + (topCells f + k1) + k2) b1 (by omega)
    obtain ⟨nd1, nd2, nd3⟩ := List.nodup_append.1 hnd
    have hw1 : World s1 W mes _ := hp.free.macros.world.grow b2 b1.keeps.consts.m0
    have hp1 := hp.later b1.later hw1 b1.keeps.consts.macros b3 fun _ _ => rfl
    obtain ⟨W2, s2, x2, gp2, mp2, e1, e2, e3, e4, e5, e6, e7, e8, -⟩ := load_form hf h1 (hr1.mono (by omega) (by omega)) hp1 b4 b5 b6 nd1
      (fun a ha => ⟨hcur a (List.mem_append_right _ ha), fun hc => nd3 a hc a ha rfl⟩) x gp mp
    have hr2 := hr1.keeps (k' := k2) e2 e3 e4 (Nat.le_refl _)
    obtain ⟨W3, s3, x3, gp3, mp3, g1, g2, g3, g4⟩ := ih W2 s2 N n L2 (hr2.mono (Nat.le_refl _) (by omega)) e6 e7 nd2 e8 x2 gp2 mp2 e5
    refine ⟨W3, s3, x3, gp3, mp3, .trans ?_ ((b7 x gp mp).trans (e1.trans g1)), (b1.keeps.trans e2).popped g2, g3, g4⟩
    refine .one (fun q => q.elim) fun fuel => ?_
    have hne : s.r1 ≠ c_nil := hpr.ne nofun
    simp only [step, if_neg hne]

end Mes
