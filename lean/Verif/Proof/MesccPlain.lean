import Verif.Spec.MesccPlain
import Verif.Spec.MesccFits

/-
Plain programs fit.
-/
namespace Mes.CLang

def Signed (ρ : Store) : Prop := ∀ e ∈ ρ, e.2.1.signed = true

theorem find_signed {ρ : Store} (h : Signed ρ) {x : String} {p : Ty × Option Int} (hf : ρ.find x = some p) : p.1.signed = true := by
  unfold Store.find at hf
  obtain ⟨e, he, rfl⟩ := Option.map_eq_some_iff.1 hf
  exact h e (List.mem_of_find?_eq_some he)

theorem promote_signed {t : Ty} (h : t.signed = true) : (promote t).signed = true := by
  unfold promote
  split
  · rfl
  · exact h

theorem common_signed {t u : Ty} (h : t.signed = true) (k : u.signed = true) : (common t u).signed = true := by
  unfold common
  rw [promote_signed h, promote_signed k]
  rfl

theorem plainTy_signed {t : Ty} (h : plainTy t = true) : t.signed = true ∧ t.Ok := by
  simp only [plainTy, Bool.and_eq_true, Bool.or_eq_true, beq_iff_eq] at h
  exact ⟨h.1, by unfold Ty.Ok; omega⟩

theorem type_signed {ρ : Store} (h : Signed ρ) (e : Expr) : ∀ (b : Bool) (n : Nat) (t : Ty), plain b n e = true → typeOf ρ e = some t → t.signed = true := by
  induction e with
  | fixed c =>
    intro b n t hp ht
    simp only [plain, Bool.and_eq_true, Bool.or_eq_true, beq_iff_eq, decide_eq_true_eq] at hp
    simp only [typeOf, Const.ty] at ht
    rcases hp with ⟨hs | hs, hv⟩ <;> rw [hs] at ht <;> simp only [hv, if_true, Option.some.injEq] at ht <;> rw [← ht] <;> rfl
  | chr c => intro b n t hp ht; cases ht; rfl
  | ident x =>
    intro b n t hp ht
    obtain ⟨p, hp, rfl⟩ := Option.map_eq_some_iff.1 ht
    exact find_signed h hp
  | un op a ih =>
    intro b n t hp ht
    cases op with
    | not =>
      obtain ⟨u, hu, ht⟩ := Option.bind_eq_some_iff.1 ht
      cases ht; rfl
    | _ =>
      obtain ⟨u, hu, ht⟩ := Option.bind_eq_some_iff.1 ht
      cases ht
      exact promote_signed (ih false n u hp hu)
  | bin op a b iha ihb =>
    intro c n t hp ht
    simp only [plain, Bool.and_eq_true] at hp
    obtain ⟨u, hu, ht⟩ := Option.bind_eq_some_iff.1 ht
    obtain ⟨w, hw, ht⟩ := Option.bind_eq_some_iff.1 ht
    cases ht
    split
    · rfl
    · split
      · exact promote_signed (iha _ _ _ hp.1.1 hu)
      · exact common_signed (iha _ _ _ hp.1.1 hu) (ihb _ _ _ hp.1.2 hw)
  | land a b iha ihb =>
    intro c n t hp ht
    obtain ⟨u, hu, ht⟩ := Option.bind_eq_some_iff.1 ht
    obtain ⟨w, hw, ht⟩ := Option.bind_eq_some_iff.1 ht
    cases ht; rfl
  | lor a b iha ihb =>
    intro c n t hp ht
    obtain ⟨u, hu, ht⟩ := Option.bind_eq_some_iff.1 ht
    obtain ⟨w, hw, ht⟩ := Option.bind_eq_some_iff.1 ht
    cases ht; rfl
  | cond a b c iha ihb ihc =>
    intro d n t hp ht
    have hp : plain false n b = true ∧ plain false n c = true := by
      cases d <;> simp only [plain, Bool.and_eq_true] at hp <;> exact ⟨hp.1.2, hp.2⟩
    obtain ⟨_, _, ht⟩ := Option.bind_eq_some_iff.1 ht
    obtain ⟨u, hu, ht⟩ := Option.bind_eq_some_iff.1 ht
    obtain ⟨w, hw, ht⟩ := Option.bind_eq_some_iff.1 ht
    cases ht
    exact common_signed (ihb _ _ _ hp.1 hu) (ihc _ _ _ hp.2 hw)
  | cast u a ih =>
    intro d n t hp ht
    obtain ⟨_, _, ht⟩ := Option.bind_eq_some_iff.1 ht
    cases ht
    have : plainTy u = true := by cases d <;> simp only [plain, Bool.and_eq_true] at hp <;> exact hp.1
    exact (plainTy_signed this).1

theorem left_signed {ρ : Store} (h : Signed ρ) (e : Expr) : ∀ (b : Bool) (n : Nat), plain b n e = true → (leftType ρ e).signed = true := by
  induction e with
  | fixed c =>
    intro b n hp
    simp only [plain, Bool.and_eq_true, Bool.or_eq_true, beq_iff_eq] at hp
    rcases hp.1 with hs | hs <;> simp only [leftType, hs] <;> rfl
  | chr c => intro b n hp; rfl
  | ident x =>
    intro b n hp
    unfold leftType
    cases hf : ρ.find x with
    | none => rfl
    | some p => exact find_signed h hf
  | un op a ih => intro b n hp; exact ih false n hp
  | bin op a b iha ihb =>
    intro c n hp
    simp only [plain, Bool.and_eq_true] at hp
    exact iha _ _ hp.1.1
  | land a b iha ihb =>
    intro c n hp
    cases c <;> simp only [plain, Bool.and_eq_true] at hp
    · exact iha _ _ hp.1.1
    · exact iha _ _ hp.1
  | lor a b iha ihb =>
    intro c n hp
    cases c <;> simp only [plain, Bool.and_eq_true] at hp
    · exact iha _ _ hp.1.1.1
    · exact iha _ _ hp.1
  | cond a b c iha ihb ihc =>
    intro d n hp
    have hp : plain false n b = true := by cases d <;> simp only [plain, Bool.and_eq_true] at hp <;> exact hp.1.2
    exact ihb _ _ hp
  | cast u a ih =>
    intro d n hp
    have : plainTy u = true := by cases d <;> simp only [plain, Bool.and_eq_true] at hp <;> exact hp.1
    exact (plainTy_signed this).1

theorem truth_cases (b : Bool) : truth b = 0 ∨ truth b = 1 := by cases b <;> simp [truth]

theorem isTruth_value {ρ : Store} {e : Expr} (h : isTruth e = true) {v : Int} (hv : eval ρ e = some v) : v = 0 ∨ v = 1 := by
  cases e with
  | un op a =>
    cases op with
    | not =>
      obtain ⟨_, _, hv⟩ := Option.bind_eq_some_iff.1 hv
      obtain ⟨_, _, hv⟩ := Option.bind_eq_some_iff.1 hv
      cases hv; exact truth_cases _
    | _ => simp [isTruth] at h
  | bin op a b =>
    obtain ⟨_, _, hv⟩ := Option.bind_eq_some_iff.1 hv
    obtain ⟨_, _, hv⟩ := Option.bind_eq_some_iff.1 hv
    obtain ⟨_, _, hv⟩ := Option.bind_eq_some_iff.1 hv
    obtain ⟨_, _, hv⟩ := Option.bind_eq_some_iff.1 hv
    cases op <;> simp [isTruth, Binop.isCompare] at h <;> simp only [Binop.isShift, binop, Bool.false_eq_true, if_false, Option.some.injEq] at hv <;>
      rw [← hv] <;> exact truth_cases _
  | land a b =>
    obtain ⟨_, _, hv⟩ := Option.bind_eq_some_iff.1 hv
    split at hv
    · cases hv; exact .inl rfl
    · obtain ⟨_, _, hv⟩ := Option.bind_eq_some_iff.1 hv
      cases hv; exact truth_cases _
  | lor a b =>
    obtain ⟨_, _, hv⟩ := Option.bind_eq_some_iff.1 hv
    split at hv
    · cases hv; exact .inr rfl
    · obtain ⟨_, _, hv⟩ := Option.bind_eq_some_iff.1 hv
      cases hv; exact truth_cases _
  | _ => simp [isTruth] at h

theorem plain_fits {ρ : Store} (h : Signed ρ) (e : Expr) : ∀ (b : Bool) (n : Nat), plain b n e = true → Fits ρ b n e := by
  induction e with
  | fixed c => intro b n hp; cases b <;> exact trivial
  | chr c => intro b n hp; cases b <;> exact trivial
  | ident x => intro b n hp; cases b <;> exact trivial
  | un op a ih => intro b n hp; cases b <;> exact ih false n hp
  | bin op a b iha ihb =>
    intro c n hp
    have hp' : (plain false n a = true ∧ plain false (n + 1) b = true) ∧ (op = .ne → n = 0) := by
      cases c <;> simp only [plain, Bool.and_eq_true, Bool.or_eq_true, bne_iff_ne, beq_iff_eq] at hp <;>
        exact ⟨hp.1, fun ho => hp.2.resolve_left fun hn => hn ho⟩
    obtain ⟨⟨pa, pb⟩, hne⟩ := hp'
    have sg : ∀ s : Bool, s = true → SignOk ρ s a b := fun s hs t u x y ht hu _ _ =>
      .inl (by rw [hs, common_signed (type_signed h a _ _ t pa ht) (type_signed h b _ _ u pb hu)])
    have la := left_signed h a _ _ pa
    have lb := left_signed h b _ _ pb
    cases c <;> exact ⟨iha _ _ pa, ihb _ _ pb, hne, fun _ => sg _ la, fun _ => sg _ (by rw [la, lb]; rfl)⟩
  | land a b iha ihb =>
    intro c n hp
    cases c <;> simp only [plain, Bool.and_eq_true] at hp
    · exact ⟨iha _ _ hp.1.1, ihb _ _ hp.1.2, fun x y _ _ hy => isTruth_value hp.2 hy⟩
    · exact ⟨iha _ _ hp.1, ihb _ _ hp.2⟩
  | lor a b iha ihb =>
    intro c n hp
    cases c <;> simp only [plain, Bool.and_eq_true] at hp
    · exact ⟨iha _ _ hp.1.1.1, ihb _ _ hp.1.1.2, fun x hx => isTruth_value hp.1.2 hx, fun y _ hy => isTruth_value hp.2 hy⟩
    · exact ⟨iha _ _ hp.1, ihb _ _ hp.2⟩
  | cond a b c iha ihb ihc =>
    intro d n hp
    have hq : ((n ≤ 1 ∧ plain true n a = true) ∧ plain false n b = true) ∧ plain false n c = true := by
      cases d <;> simpa only [plain, Bool.and_eq_true, decide_eq_true_eq] using hp
    cases d <;> exact ⟨hq.1.1.1, iha _ _ hq.1.1.2, ihb _ _ hq.1.2, ihc _ _ hq.2⟩
  | cast u a ih =>
    intro d n hp
    have hq : plainTy u = true ∧ plain false n a = true := by cases d <;> simpa only [plain, Bool.and_eq_true] using hp
    cases d <;> exact ⟨(plainTy_signed hq.1).2, ih _ _ hq.2⟩

/-! ## Statements -/

theorem leave_signed {ρ ρ' : Store} (h : Signed ρ') : Signed (ρ.leave ρ') := fun e he => h e (List.mem_of_mem_drop he)

theorem set_signed {x : String} {v : Int} : ∀ {ρ ρ' : Store}, ρ.set x v = some ρ' → Signed ρ → Signed ρ'
  | [], _, h, _ => by simp [Store.set] at h
  | (y, t, o) :: ρ, ρ', h, hs => by
    unfold Store.set at h
    split at h
    · cases h
      intro e he
      rcases List.mem_cons.1 he with rfl | he
      · exact hs (y, t, o) List.mem_cons_self
      · exact hs e (List.mem_cons_of_mem _ he)
    · obtain ⟨ρ1, h1, rfl⟩ := Option.map_eq_some_iff.1 h
      intro e he
      rcases List.mem_cons.1 he with rfl | he
      · exact hs _ List.mem_cons_self
      · exact set_signed h1 (fun e he => hs e (List.mem_cons_of_mem _ he)) e he

theorem cons_signed {x : String} {t : Ty} {o : Option Int} {ρ : Store} (ht : plainTy t = true) (h : Signed ρ) : Signed ((x, t, o) :: ρ) := fun e he => by
  rcases List.mem_cons.1 he with rfl | he
  · exact (plainTy_signed ht).1
  · exact h e he

theorem run_signed (n : Nat) : ∀ (s : Stmt) (ρ ρ' : Store) (o : Out), plainS s = true → Signed ρ → run n s ρ = some (ρ', o) → Signed ρ' := by
  induction n with
  | zero => intro s ρ ρ' o hp hs h; cases h
  | succ n ih =>
    intro s ρ ρ' o hp hs h
    cases s with
    | skip => cases h; exact hs
    | brk => cases h; exact hs
    | cont => cases h; exact hs
    | expr e =>
      obtain ⟨v, -, h⟩ := Option.bind_eq_some_iff.1 h
      cases h; exact hs
    | ret e =>
      obtain ⟨v, -, h⟩ := Option.bind_eq_some_iff.1 h
      cases h; exact hs
    | assign x e =>
      obtain ⟨v, -, h⟩ := Option.bind_eq_some_iff.1 h
      obtain ⟨ρ1, h1, h⟩ := Option.bind_eq_some_iff.1 h
      cases h; exact set_signed h1 hs
    | decl t x e =>
      cases e with
      | none => cases h; exact cons_signed hp hs
      | some e =>
        simp only [plainS, Bool.and_eq_true] at hp
        obtain ⟨v, -, h⟩ := Option.bind_eq_some_iff.1 h
        cases h; exact cons_signed hp.1 hs
    | seq s t =>
      simp only [plainS, Bool.and_eq_true] at hp
      obtain ⟨⟨ρ1, o1⟩, h1, h⟩ := Option.bind_eq_some_iff.1 h
      have s1 := ih s ρ ρ1 o1 hp.1 hs h1
      cases o1 with
      | normal => exact ih t ρ1 ρ' o hp.2 s1 h
      | brk => cases h; exact s1
      | cont => cases h; exact s1
      | ret v => cases h; exact s1
    | block s =>
      obtain ⟨⟨ρ1, o1⟩, h1, h⟩ := Option.bind_eq_some_iff.1 h
      cases h; exact leave_signed (ih s ρ ρ1 _ hp hs h1)
    | ifThen c s =>
      simp only [plainS, Bool.and_eq_true] at hp
      obtain ⟨v, -, h⟩ := Option.bind_eq_some_iff.1 h
      split at h
      · obtain ⟨⟨ρ1, o1⟩, h1, h⟩ := Option.bind_eq_some_iff.1 h
        cases h; exact leave_signed (ih s ρ ρ1 _ hp.2 hs h1)
      · cases h; exact hs
    | ifElse c s t =>
      simp only [plainS, Bool.and_eq_true] at hp
      obtain ⟨v, -, h⟩ := Option.bind_eq_some_iff.1 h
      obtain ⟨⟨ρ1, o1⟩, h1, h⟩ := Option.bind_eq_some_iff.1 h
      cases h
      refine leave_signed (ih _ ρ ρ1 _ ?_ hs h1)
      split
      · exact hp.1.2
      · exact hp.2
    | «while» c s =>
      have hp' := hp
      simp only [plainS, Bool.and_eq_true] at hp
      obtain ⟨v, -, h⟩ := Option.bind_eq_some_iff.1 h
      split at h
      · cases h; exact hs
      · obtain ⟨⟨ρ1, o1⟩, h1, h⟩ := Option.bind_eq_some_iff.1 h
        have s1 := leave_signed (ρ := ρ) (ih s ρ ρ1 _ hp.2 hs h1)
        cases o1 with
        | normal => exact ih (.while c s) _ _ _ hp' s1 h
        | cont => exact ih (.while c s) _ _ _ hp' s1 h
        | brk => cases h; exact s1
        | ret v => cases h; exact s1
    | doWhile s c =>
      have hp' := hp
      simp only [plainS, Bool.and_eq_true] at hp
      obtain ⟨⟨ρ1, o1⟩, h1, h⟩ := Option.bind_eq_some_iff.1 h
      have s1 := leave_signed (ρ := ρ) (ih s ρ ρ1 _ hp.2 hs h1)
      have key : (do let v ← eval (ρ.leave ρ1) c; if v = 0 then some (ρ.leave ρ1, Out.normal) else run n (.doWhile s c) (ρ.leave ρ1)) =
          some (ρ', o) → Signed ρ' := fun h => by
        obtain ⟨v, -, h⟩ := Option.bind_eq_some_iff.1 h
        split at h
        · cases h; exact s1
        · exact ih (.doWhile s c) _ _ _ hp' s1 h
      cases o1 with
      | normal => exact key h
      | cont => exact key h
      | brk => cases h; exact s1
      | ret v => cases h; exact s1

theorem plain_run (n : Nat) : ∀ (s : Stmt) (ρ : Store), plainS s = true → Signed ρ → FitsRun n s ρ := by
  induction n with
  | zero => intro s ρ hp hs; exact trivial
  | succ n ih =>
    intro s ρ hp hs
    cases s with
    | skip => exact trivial
    | brk => exact trivial
    | cont => exact trivial
    | expr e => exact plain_fits hs e _ _ hp
    | ret e => exact plain_fits hs e _ _ hp
    | assign x e => exact plain_fits hs e _ _ hp
    | decl t x e =>
      cases e with
      | none => exact (plainTy_signed hp).2
      | some e =>
        simp only [plainS, Bool.and_eq_true] at hp
        exact ⟨(plainTy_signed hp.1).2, plain_fits (cons_signed hp.1 hs) e _ _ hp.2⟩
    | seq s t =>
      simp only [plainS, Bool.and_eq_true] at hp
      exact ⟨ih s ρ hp.1 hs, fun ρ' hr => ih t ρ' hp.2 (run_signed n s ρ ρ' _ hp.1 hs hr)⟩
    | block s => exact ih s ρ hp hs
    | ifThen c s =>
      simp only [plainS, Bool.and_eq_true] at hp
      exact ⟨plain_fits hs c _ _ hp.1, fun v _ _ => ih s ρ hp.2 hs⟩
    | ifElse c s t =>
      simp only [plainS, Bool.and_eq_true] at hp
      refine ⟨plain_fits hs c _ _ hp.1.1, fun v _ => ih _ ρ ?_ hs⟩
      split
      · exact hp.1.2
      · exact hp.2
    | «while» c s =>
      have hp' := hp
      simp only [plainS, Bool.and_eq_true] at hp
      exact ⟨plain_fits hs c _ _ hp.1, fun v _ _ => ⟨ih s ρ hp.2 hs, fun ρ' o hr _ =>
        ih (.while c s) _ hp' (leave_signed (run_signed n s ρ ρ' o hp.2 hs hr))⟩⟩
    | doWhile s c =>
      have hp' := hp
      simp only [plainS, Bool.and_eq_true] at hp
      refine ⟨ih s ρ hp.2 hs, fun ρ' o hr _ => ?_⟩
      have s1 := leave_signed (ρ := ρ) (run_signed n s ρ ρ' o hp.2 hs hr)
      exact ⟨plain_fits s1 c _ _ hp.1, fun v _ _ => ih (.doWhile s c) _ hp' s1⟩

theorem enter_signed : ∀ {ps : List (String × Ty)} {vs : List Int}, (∀ p ∈ ps, plainTy p.2 = true) → Signed (enter ps vs)
  | [], _, _ => (fun e he => nomatch he)
  | _ :: _, [], _ => (fun e he => nomatch he)
  | (x, t) :: ps, v :: vs, h => cons_signed (h _ List.mem_cons_self) (enter_signed fun p hp => h p (List.mem_cons_of_mem _ hp))

end Mes.CLang
