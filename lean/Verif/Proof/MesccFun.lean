import Verif.Proof.MesccRun
import Verif.Proof.MesccPlain
import Verif.Spec.MesccCall

/-
A call of an assembled function.
-/
namespace Mes.X86
open Mes.Mescc Mes.CLang

/-! ## The assembler -/

theorem labelsOf_label (x : String) (ls : List Line) : labelsOf (.label x :: ls) = x :: labelsOf ls := rfl

theorem labelsOf_other {l : Line} (h : ∀ x, l ≠ .label x) (ls : List Line) : labelsOf (l :: ls) = labelsOf ls := by
  cases l with
  | label x => exact absurd rfl (h x)
  | ins => rfl
  | comment => rfl

def LabelsAt (env : String → Word) : Word → List Line → Prop
  | _, [] => True
  | a, l :: ls => (∀ x, l = .label x → env x = a) ∧ LabelsAt env (a + BitVec.ofNat 32 l.size) ls

theorem labelsAt_congr {env env' : String → Word} : ∀ {ls : List Line} {a : Word}, LabelsAt env a ls → (∀ x ∈ labelsOf ls, env' x = env x) →
    LabelsAt env' a ls
  | [], _, _, _ => trivial
  | l :: ls, a, h, hx => by
    refine ⟨fun x hl => ?_, labelsAt_congr h.2 fun x hm => hx x ?_⟩
    · subst hl
      rw [hx x (by rw [labelsOf_label]; exact List.mem_cons_self)]
      exact h.1 x rfl
    · cases l with
      | label y => rw [labelsOf_label]; exact List.mem_cons_of_mem _ hm
      | ins => exact hm
      | comment => exact hm

theorem addresses_labels : ∀ (ls : List Line) (a : Word), (labelsOf ls).Nodup → LabelsAt (addresses a ls) a ls
  | [], _, _ => trivial
  | l :: ls, a, h => by
    cases l with
    | label x =>
      rw [labelsOf_label] at h
      obtain ⟨h1, h2⟩ := List.nodup_cons.1 h
      refine ⟨fun y hy => ?_, labelsAt_congr (addresses_labels ls _ h2) fun y hy => ?_⟩
      · cases hy; exact if_pos rfl
      · have : x ≠ y := fun e => h1 (e ▸ hy)
        show (if x = y then a else addresses a ls y) = addresses (a + BitVec.ofNat 32 0) ls y
        rw [if_neg this, BitVec.add_zero]
    | ins n as => exact ⟨(fun y hy => nomatch hy), addresses_labels ls _ h⟩
    | comment => exact ⟨(fun y hy => nomatch hy), addresses_labels ls _ h⟩

theorem codeAt_of {X : Frame} : ∀ {ls : List Line} {a : Word} {bs : List Byte8}, assemble X.env a ls = some bs → LabelsAt X.env a ls →
    (∀ i (h : i < bs.length), ¬ X.Inside (a + BitVec.ofNat 32 i) ∧ X.M (a + BitVec.ofNat 32 i) = bs[i]) → CodeAt X a ls
  | [], _, _, _, _, _ => trivial
  | l :: ls, a, bs, h, hl, hm => by
    obtain ⟨b, hb, h⟩ := Option.bind_eq_some_iff.1 h
    obtain ⟨c, hc, h⟩ := Option.bind_eq_some_iff.1 h
    cases h
    have hs := size_of_bytes hb
    refine ⟨⟨b, hb, fun i hi => ?_⟩, hl.1, ?_⟩
    · have := hm i (by rw [List.length_append]; omega)
      rw [List.getElem_append_left hi] at this
      exact this
    · rw [hs] at hc
      refine codeAt_of hc hl.2 fun i hi => ?_
      have := hm (l.size + i) (by rw [List.length_append]; omega)
      rw [List.getElem_append_right (by omega), BitVec.ofNat_add, ← BitVec.add_assoc] at this
      simpa only [hs, Nat.add_sub_cancel_left] using this

/-! ## Parameters -/

theorem paramLocals_id {e : String × Local} : ∀ {ps : List (String × Ty)} {id : Int}, e ∈ paramLocals id ps → e.2.id ≤ id
  | [], _, h => nomatch h
  | (x, t) :: ps, id, h => by
    rcases List.mem_cons.1 h with rfl | h
    · exact Int.le_refl _
    · have := paramLocals_id h; omega

theorem paramLocals_pairwise : ∀ (ps : List (String × Ty)) (id : Int), (paramLocals id ps).Pairwise (fun a b => a.2.id ≠ b.2.id)
  | [], _ => List.Pairwise.nil
  | (x, t) :: ps, id => List.pairwise_cons.2 ⟨fun e he => by
      have := paramLocals_id he
      show id ≠ e.2.id
      omega, paramLocals_pairwise ps _⟩

theorem paramLocals_newId (ps : List (String × Ty)) : newId (paramLocals (-2) ps) = 1 := by
  cases ps with
  | nil => rfl
  | cons p ps => rfl

theorem paramLocals_lay (ps : List (String × Ty)) : Lay (paramLocals (-2) ps) := by
  refine ⟨paramLocals_pairwise ps _, fun e he => ?_, fun e he => ?_⟩
  · have := paramLocals_id he
    rw [paramLocals_newId]; omega
  · have := paramLocals_id he
    omega

theorem params_vars {X : Frame} {V : Nat → Word} : ∀ {ps : List (String × Ty)} {vs : List Int} (k : Nat), ps.length = vs.length →
    (∀ p ∈ ps, p.2.Ok) → k + ps.length ≤ X.params →
    (∀ j (h : j < vs.length), V (X.room + X.locals + 2 + (k + j)) = BitVec.ofInt 32 vs[j]) → Vars X V (paramLocals (-2 - (k : Int)) ps) (enter ps vs)
  | [], [], _, _, _, _, _ => trivial
  | [], _ :: _, _, h, _, _, _ => nomatch h
  | _ :: _, [], _, h, _, _, _ => nomatch h
  | (x, t) :: ps, v :: vs, k, hl, ht, hk, hv => by
    simp only [List.length_cons] at hl hk hv
    have e0 : slot X (-2 - (k : Int)) = X.room + X.locals + 2 + k := by unfold slot; omega
    refine ⟨⟨rfl, rfl, ht _ List.mem_cons_self, by show 0 ≤ _ - (-2 - (k : Int)); omega, by show X.room ≤ slot X (-2 - (k : Int)); omega,
      by show slot X (-2 - (k : Int)) < _; unfold Frame.words; omega, fun v' hv' => ?_⟩, ?_⟩
    · cases hv'
      refine ⟨?_, wrap_bounded (ht _ List.mem_cons_self) v⟩
      show conv t (V (slot X (-2 - (k : Int)))) = _
      rw [e0, ← conv_ofInt (ht _ List.mem_cons_self)]
      congr 1
      exact hv 0 (by omega)
    · have := params_vars (X := X) (V := V) (ps := ps) (vs := vs) (k + 1) (by omega) (fun p hp => ht p (List.mem_cons_of_mem _ hp)) (by omega)
        (fun j hj => by
          have := hv (j + 1) (by omega)
          rw [show k + 1 + j = k + (j + 1) by omega, this]
          rfl)
      rw [show -2 - ((k + 1 : Nat) : Int) = -2 - (k : Int) - 1 by omega] at this
      exact this

/-! ## The preamble -/

theorem preamble_ok {X : Frame} (hX : X.Ok) (hl : X.locals = 1045) {m : Mach} {base : Word} {T : List (List Line)} (hT : CodeAt X base T.flatten)
    {f : Function} (hp : (functionStart f).text <+: T) (he : m.eip = base) (hs : m.reg .esp = X.at (X.room + X.locals + 1))
    (hm : ∀ x, ¬ X.Inside x → m.mem x = X.M x) :
    ∃ V, V (X.room + X.locals) = m.reg .ebp ∧ (∀ k, X.room + X.locals < k → k < X.words → V k = word m.mem (X.at k)) ∧
      Reach X V base m (functionStart f) [] (fun _ => True) := by
  have hp' : (appendText { functionStart f with text := [] } [functionPreamble ++ functionLocals]).text <+: T := hp
  have h0 := here_of (m := m) hT hp' (by rw [he]; unfold pos; simp [textSize_nil]) hm
  obtain ⟨m1, a1, a2, a3, -⟩ := i_push_ebp h0
  rw [hs, X.at_sub4] at a3
  have hm1 : ∀ x, ¬ X.Inside x → m1.mem x = X.M x := fun x hx => by
    rw [a3, poke_outside X hX _ (by unfold Frame.words; omega) _ hx]; exact hm x hx
  obtain ⟨m2, b1, b2, b3, -⟩ := i_mov_esp_ebp (a1.here hm1)
  obtain ⟨m3, c1, c2, c3⟩ := i_subi_esp (b1.here (by rw [b3]; exact hm1))
  have w : ∀ k, k < X.words → word m3.mem (X.at k) = if k = X.room + X.locals then m.reg .ebp else word m.mem (X.at k) := fun k hk => by
    rw [c3, b3, a3, word_poke X hX _ hk (by unfold Frame.words; omega)]
  refine ⟨fun k => word m3.mem (X.at k), ?_, fun k h1 h2 => ?_, m3, (a1.steps.trans b1.steps).trans c1.steps, ?_, ?_, trivial⟩
  · show word m3.mem _ = _
    rw [w _ (by unfold Frame.words; omega)]; exact if_pos rfl
  · show word m3.mem _ = _
    rw [w _ h2]; exact if_neg (by omega)
  · rw [c1.eip, b1.eip, a1.eip, he, BitVec.add_assoc, BitVec.add_assoc, ← BitVec.ofNat_add, ← BitVec.ofNat_add]
    rfl
  · have e1 : m1.reg .esp = X.bp := by rw [a2, upd_same, hs, X.at_sub4]; rfl
    refine ⟨?_, by simp, ?_, trivial, trivial, fun k _ _ => rfl, fun x hx => by rw [c3, b3]; exact hm1 x hx⟩
    · rw [c2, upd_other _ _ (by decide), b2, upd_same, e1]
    · rw [c2, upd_same, b2, upd_other _ _ (by decide), e1]
      show X.at (X.room + X.locals) - BitVec.ofInt 32 (4 * 1025 + 20 * 4) = X.at (X.room - 0)
      rw [hl, Nat.sub_zero, ← show BitVec.ofNat 32 4180 = BitVec.ofInt 32 (4 * 1025 + 20 * 4) from by decide]
      unfold Frame.at
      rw [show 4 * (X.room + 1045) = 4 * X.room + 4180 by omega, BitVec.ofNat_add, ← BitVec.add_assoc]
      exact BitVec.add_sub_cancel _ _

/-! ## A call -/

theorem call_ok {X : Frame} (hX : X.Ok) (hl : X.locals = 1045) {m : Mach} {base : Word} {f : Function} {args : List Int} {n : Nat} {v : Int}
    (hT : CodeAt X base (functionText f).flatten) (hc : call n f args = some v) (hf : FitsRun n f.body (enter f.params args)) (hw : f.body.Formed)
    (ht : ∀ p ∈ f.params, p.2.Ok) (hlen : f.params.length = args.length) (hpar : X.params = f.params.length)
    (hd : depthS f.body ≤ X.room + 2) (hi : decls f.body ≤ 1045)
    (he : m.eip = base) (hs : m.reg .esp = X.at (X.room + X.locals + 1)) (hm : ∀ x, ¬ X.Inside x → m.mem x = X.M x)
    (hbp : m.reg .ebp = X.savedBp) (hret : word m.mem (X.at (X.room + X.locals + 1)) = X.retAddr)
    (ha : ∀ j (h : j < args.length), word m.mem (X.at (X.room + X.locals + 2 + j)) = BitVec.ofInt 32 args[j]) :
    Returned X m (BitVec.ofInt 32 v) := by
  have htext : (astToInfo f.body (functionStart f)).text <+: functionText f := by
    unfold functionText assertReturn
    show (astToInfo f.body (functionStart f)).text <+: if _ then (astToInfo f.body (functionStart f)).text else (astToInfo f.body (functionStart f)).text ++ _
    split
    · exact List.prefix_refl _
    · exact List.prefix_append _ _
  have hp := (ast_grows f.body (functionStart f)).text.trans htext
  obtain ⟨V, v1, v2, v3⟩ := preamble_ok hX hl hT hp he hs hm
  unfold call at hc
  split at hc
  · rename_i ρ' v' hr
    cases hc
    have hv : Vars X V (functionStart f).locals (enter f.params args) := by
      refine params_vars (X := X) (V := V) (ps := f.params) (vs := args) 0 hlen ht (by omega) fun j hj => ?_
      rw [Nat.zero_add, v2 _ (by omega) (by unfold Frame.words; omega)]
      exact ha j hj
    have hsv : Saved X V := ⟨by rw [v1, hbp], by rw [v2 _ (by omega) (by unfold Frame.words; omega)]; exact hret⟩
    exact (run_ok hX hT n).1 f.body _ ρ' _ (functionStart f) m V _ hr hf hw htext ⟨⟨rfl, rfl, rfl⟩, hv, paramLocals_lay _, hsv⟩ hd
      (by show newId (paramLocals (-2) f.params) + _ ≤ _; rw [paramLocals_newId]; omega) v3
  · cases hc

/-- A call of a function somewhere in an assembled text, with the stack as the caller left it. -/
theorem called_in {f : Function} {args : List Int} {n : Nat} {v : Int} {base : Word} {bs : List Byte8} {room : Nat} {m : Mach}
    {pre post : List Line} {env : String → Word} (hs : Sized f room) (hl : f.params.length = args.length)
    (ha : assemble env base (pre ++ (functionText f).flatten ++ post) = some bs)
    (hn : LabelsAt env base (pre ++ (functionText f).flatten ++ post))
    (hm : Called base bs args room { m with eip := base }) (he : m.eip = base + BitVec.ofNat 32 (textSize pre))
    (hf : FitsRun n f.body (enter f.params args)) (hc : call n f args = some v) : Returns m room args.length v := by
  let X : Frame := {
    lo := m.reg .esp - BitVec.ofNat 32 (4 * (room + 1046)), room := room, locals := 1045, params := args.length, M := m.mem,
    env := env, savedBp := m.reg .ebp, retAddr := read32 m (m.reg .esp) }
  have hw : X.words = room + 1047 + args.length := by show room + 1045 + 2 + args.length = _; omega
  have hX : X.Ok := by unfold Frame.Ok; rw [hw]; exact hm.size
  have hin : ∀ x, X.Inside x ↔ OnStack (m.reg .esp) room args.length x := fun x => by
    unfold Frame.Inside OnStack; rw [hw]
  have hsp : ∀ k, X.at (X.room + X.locals + 1 + k) = m.reg .esp + BitVec.ofNat 32 (4 * k) := fun k => by
    show m.reg .esp - BitVec.ofNat 32 (4 * (room + 1046)) + BitVec.ofNat 32 (4 * (room + 1045 + 1 + k)) = _
    rw [show 4 * (room + 1045 + 1 + k) = 4 * (room + 1046) + 4 * k by omega, BitVec.ofNat_add, ← BitVec.add_assoc, BitVec.sub_add_cancel]
  have hsp0 := hsp 0
  simp only [Nat.add_zero, Nat.mul_zero, BitVec.add_zero] at hsp0
  have hT : CodeAt X base (pre ++ (functionText f).flatten ++ post) := codeAt_of ha hn fun i h =>
    ⟨fun hi => (hm.code i h).2 ((hin _).1 hi), (hm.code i h).1⟩
  have hT : CodeAt X (base + BitVec.ofNat 32 (textSize pre)) (functionText f).flatten :=
    ((codeAt_append ..).1 ((codeAt_append ..).1 hT).1).2
  obtain ⟨m', k1, k2, k3, k4, k5, k6⟩ := call_ok hX rfl hT hc hf hs.formed hs.params hl hl.symm hs.depth hs.decls he hsp0.symm
    (fun x _ => rfl) rfl (by rw [hsp0]; rfl) (fun j hj => by
      rw [show X.room + X.locals + 2 + j = X.room + X.locals + 1 + (j + 1) by omega, hsp]
      exact hm.args j hj)
  refine ⟨m', k1, k2, k3, ?_, k5, fun x hx => k6 x fun hi => hx ((hin x).1 hi)⟩
  rw [k4, ← hsp0, ← X.at_add4]
  show X.at (X.room + X.locals) + 8 = X.at (X.room + X.locals) + 4 + 4
  rw [BitVec.add_assoc]
  rfl

/-- A call of the assembled function, with the stack as the caller left it. -/
theorem called_ok {f : Function} {args : List Int} {n : Nat} {v : Int} {base : Word} {bs : List Byte8} {room : Nat} {m : Mach}
    (hs : Sized f room) (hl : f.params.length = args.length) (hn : (labelsOf (functionText f).flatten).Nodup)
    (ha : assemble (addresses base (functionText f).flatten) base (functionText f).flatten = some bs) (hm : Called base bs args room m)
    (hf : FitsRun n f.body (enter f.params args)) (hc : call n f args = some v) : Returns m room args.length v :=
  called_in (pre := []) (post := []) hs hl (by rw [List.nil_append, List.append_nil]; exact ha)
    (by rw [List.nil_append, List.append_nil]; exact addresses_labels _ _ hn) ⟨rfl, hm.code, hm.args, hm.size⟩
    (by rw [show textSize [] = 0 from rfl, BitVec.add_zero]; exact hm.eip) hf hc

theorem plain_called {f : Function} (hp : plainF f = true) (n : Nat) (args : List Int) : FitsRun n f.body (enter f.params args) := by
  simp only [plainF, Bool.and_eq_true, List.all_eq_true] at hp
  exact plain_run n f.body _ hp.1 (enter_signed hp.2)

/-! ## Machines that stop -/

theorem halts_unique {m m1 m2 : Mach} (h1 : Steps m m1) (h2 : Steps m m2) (e1 : X86.step m1 = none) (e2 : X86.step m2 = none) : m1 = m2 := by
  induction h1 with
  | refl m =>
    cases h2 with
    | refl => rfl
    | step h _ => rw [e1] at h; cases h
  | step h _ ih =>
    cases h2 with
    | refl => rw [e2] at h; cases h
    | step h' h2 =>
      rw [h] at h'
      cases h'
      exact ih h2 e1

/-- There is no instruction at the return address, and the stack is not there: only one value comes back. -/
theorem returns_unique {m : Mach} {room n : Nat} {v w : Int} (h1 : Returns m room n v) (h2 : Returns m room n w)
    (hr : ∀ i, i < 16 → m.mem (read32 m (m.reg .esp) + BitVec.ofNat 32 i) = 0xd6 ∧
      ¬ OnStack (m.reg .esp) room n (read32 m (m.reg .esp) + BitVec.ofNat 32 i)) : BitVec.ofInt 32 v = BitVec.ofInt 32 w := by
  have key : ∀ m' : Mach, m'.eip = read32 m (m.reg .esp) → (∀ x, ¬ OnStack (m.reg .esp) room n x → m'.mem x = m.mem x) → X86.step m' = none := by
    intro m' he hm
    have hf : fetch m' m'.eip = List.replicate 16 0xd6 := by
      unfold fetch
      apply List.ext_getElem
      · simp
      · intro i h1 h2
        have hi : i < 16 := by simpa using h1
        simp only [List.getElem_map, List.getElem_range, List.getElem_replicate]
        rw [he, hm _ (hr i hi).2, (hr i hi).1]
    unfold X86.step
    rw [hf, show decode (List.replicate 16 0xd6) = none from by decide +kernel]
  obtain ⟨m1, a1, a2, a3, -, -, a4⟩ := h1
  obtain ⟨m2, b1, b2, b3, -, -, b4⟩ := h2
  rw [← a3, ← b3, halts_unique a1 b1 (key m1 a2 a4) (key m2 b2 b4)]

/-! ## What MesCC makes of some functions -/

/-- A function that only returns a value. -/
theorem called_ret {name : String} {ps : List (String × Ty)} {e : Expr} {args : List Int} {w : Int} {base : Word} {bs : List Byte8} {room : Nat}
    {m : Mach} (hs : Sized ⟨name, ps, .ret e⟩ room) (hl : ps.length = args.length)
    (hn : (labelsOf (functionText ⟨name, ps, .ret e⟩).flatten).Nodup)
    (ha : assemble (addresses base (functionText ⟨name, ps, .ret e⟩).flatten) base (functionText ⟨name, ps, .ret e⟩).flatten = some bs)
    (hm : Called base bs args room m)
    (he : ∀ (X : Frame) (V : Nat → Word) (T : List (List Line)) (L : List (String × Local)), X.Ok → CodeAt X base T.flatten →
      Vars X V L (enter ps args) → ∃ Q, Eok X V T base L (compile e).reg 0 (depth e) (BitVec.ofInt 32 w) Q) : Returns m room args.length w := by
  let f : Function := ⟨name, ps, .ret e⟩
  let X : Frame := {
    lo := m.reg .esp - BitVec.ofNat 32 (4 * (room + 1046)), room := room, locals := 1045, params := args.length, M := m.mem,
    env := addresses base (functionText f).flatten, savedBp := m.reg .ebp, retAddr := read32 m (m.reg .esp) }
  have hw : X.words = room + 1047 + args.length := by show room + 1045 + 2 + args.length = _; omega
  have hX : X.Ok := by unfold Frame.Ok; rw [hw]; exact hm.size
  have hin : ∀ x, X.Inside x ↔ OnStack (m.reg .esp) room args.length x := fun x => by
    unfold Frame.Inside OnStack; rw [hw]
  have hsp : ∀ k, X.at (X.room + X.locals + 1 + k) = m.reg .esp + BitVec.ofNat 32 (4 * k) := fun k => by
    show m.reg .esp - BitVec.ofNat 32 (4 * (room + 1046)) + BitVec.ofNat 32 (4 * (room + 1045 + 1 + k)) = _
    rw [show 4 * (room + 1045 + 1 + k) = 4 * (room + 1046) + 4 * k by omega, BitVec.ofNat_add, ← BitVec.add_assoc, BitVec.sub_add_cancel]
  have hsp0 := hsp 0
  simp only [Nat.add_zero, Nat.mul_zero, BitVec.add_zero] at hsp0
  have hT : CodeAt X base (functionText f).flatten := codeAt_of ha (addresses_labels _ _ hn) fun i h =>
    ⟨fun hi => (hm.code i h).2 ((hin _).1 hi), (hm.code i h).1⟩
  have htext : (astToInfo f.body (functionStart f)).text <+: functionText f := by
    unfold functionText assertReturn
    show (astToInfo f.body (functionStart f)).text <+: if _ then (astToInfo f.body (functionStart f)).text else (astToInfo f.body (functionStart f)).text ++ _
    split
    · exact List.prefix_refl _
    · exact List.prefix_append _ _
  have hp := (ast_grows f.body (functionStart f)).text.trans htext
  obtain ⟨V, v1, v2, v3⟩ := preamble_ok hX rfl hT hp hm.eip hsp0.symm (fun x _ => rfl)
  have hv : Vars X V (functionStart f).locals (enter ps args) := by
    refine params_vars (X := X) (V := V) (ps := ps) (vs := args) 0 hl hs.params (by show 0 + ps.length ≤ args.length; omega) fun j hj => ?_
    rw [Nat.zero_add, v2 _ (by omega) (by rw [hw]; show room + 1045 + 2 + j < _; omega),
      show X.room + X.locals + 2 + j = X.room + X.locals + 1 + (j + 1) by omega, hsp]
    exact hm.args j hj
  have hsv : Saved X V := ⟨v1, by rw [v2 _ (by omega) (by unfold Frame.words; omega), hsp0]; rfl⟩
  have r0 : Regs (functionStart f) 0 := ⟨rfl, rfl, rfl⟩
  have e1 : astToInfo f.body (functionStart f) = appendText (freeRegister (exprToRegister e (functionStart f))) [Mescc.ret] := by
    show appendText (freeRegister (exprToRegister e (freeAll (functionStart f)))) [Mescc.ret] = _
    rw [freeAll_zero r0]
  rw [e1] at htext
  have p1 := (prefix_append _).trans htext
  have r1 := ((compile_grows e).reg (functionStart f) 0).regs r0
  obtain ⟨Q, hE⟩ := he X V (functionText f) (functionStart f).locals hX hT hv
  have s1 := hE (functionStart f) [] m _ rfl r0 rfl (by have := hs.depth; simp only [depthS] at this; show 0 + _ ≤ room + 2; omega) (free_text.trans p1) v3
  obtain ⟨m', k1, k2, k3, k4, k5, k6⟩ := (s1.text (free_same r1 (by omega))).ret hT hsv htext
  refine ⟨m', k1, k2, k3, ?_, k5, fun x hx => k6 x fun hi => hx ((hin x).1 hi)⟩
  rw [k4, ← hsp0, ← X.at_add4]
  show X.at (X.room + X.locals) + 8 = X.at (X.room + X.locals) + 4 + 4
  rw [BitVec.add_assoc]
  rfl

/-- Division goes by the sign of the left operand. -/
theorem div_signed {X : Frame} {V : Nat → Word} {T : List (List Line)} {base : Word} {L : List (String × Local)} {ρ : Store} (hX : X.Ok)
    (hT : CodeAt X base T.flatten) (hV : Vars X V L ρ) {a b : Expr} {x y : Int} (hs : (leftType ρ a).signed = true) (fa : Fits ρ false 0 a)
    (fb : Fits ρ false 1 b) (hx : eval ρ a = some x) (hy : eval ρ b = some y) (h0 : (BitVec.ofInt 32 y).toInt ≠ 0)
    (hq : -2 ^ 31 ≤ (BitVec.ofInt 32 x).toInt.tdiv (BitVec.ofInt 32 y).toInt ∧ (BitVec.ofInt 32 x).toInt.tdiv (BitVec.ofInt 32 y).toInt < 2 ^ 31) :
    Eok X V T base L (compile (.bin .div a b)).reg 0 (depth (.bin .div a b))
      (BitVec.ofInt 32 ((BitVec.ofInt 32 x).toInt.tdiv (BitVec.ofInt 32 y).toInt)) (fun _ => True) := by
  have key := binop_ok hT (compile_grows a) (compile_grows b) ((compile_ok hX hT hV a).1 0 x fa hx) ((compile_ok hX hT hV b).1 1 y fb hy)
    (fun i ds hr => r0DivR1_signed hr h0 hq) (Q := fun _ => True) (fun _ _ _ => trivial)
  intro i d m Q0 h1 h2 h3 h4 h5 h6
  have e : (compile (.bin .div a b)).reg i = binopToR (compile a) (compile b) (r0DivR1 · true) i := by
    show binToRegister .div (compile a) (compile b) (isFixed b) i (astType i.locals a).signed
      (!(astType i.locals a).signed || !(astType i.locals b).signed) = _
    rw [h3, astType_eq hV a, hs]
    rfl
  rw [e] at h5 ⊢
  exact key i d m Q0 h1 h2 h3 h4 h5 h6

/-- `||` gives its left operand, if that is not 0. -/
theorem or_left {X : Frame} {V : Nat → Word} {T : List (List Line)} {base : Word} {L : List (String × Local)} {ρ : Store} (hX : X.Ok)
    (hT : CodeAt X base T.flatten) (hV : Vars X V L ρ) {a b : Expr} {x : Int} (fa : Fits ρ false 0 a) (hx : eval ρ a = some x)
    (h0 : BitVec.ofInt 32 x ≠ 0) :
    Eok X V T base L (compile (.lor a b)).reg 0 (depth (.lor a b)) (BitVec.ofInt 32 x) (fun _ => True) := by
  intro i d m Q0 h1 h2 h3 h4 h5 h6
  obtain rfl := List.length_eq_zero_iff.1 h1
  simp only [depth] at h4
  have e1 := (prefix_append _).trans h5
  have e2 := (prefix_append _).trans e1
  have e3 := ((compile_grows b).reg _ 0).ext.text.trans e2
  have e4 := free_text.trans e3
  have e5 := (prefix_append _).trans e4
  have e6 := (prefix_append _).trans e5
  have e7 := (prefix_append _).trans e6
  have r1 := ((compile_grows a).reg i _).regs h2
  have s1 := (compile_ok hX hT hV a).1 0 x fa hx i [] m Q0 rfl h2 h3 (by omega) e7 h6
  have s2 := s1.run hT (testR_run (d := []) r1) e6 (R := fun f => f.zf = decide (BitVec.ofInt 32 x = 0)) (fun _ _ _ h => h)
  exact (s2.jne hT e5 (fun f hf => by rw [hf]; exact decide_eq_false h0)).label hT h5

end Mes.X86
