import Verif.Proof.MesccFun
import Verif.Proof.MesccDefined
import Verif.Proof.MesccLabels

/-
The text of a program: its labels, the targets of its jumps, its mnemonics.
-/
namespace Mes.X86
open Mes.Mescc Mes.CLang

/-! ## Functions -/

theorem functionText_parts (f : Function) : ∃ t, functionText f = (astToInfo f.body (functionStart f)).text ++ t ∧ (t = [] ∨ t = [Mescc.ret]) := by
  by_cases h : (astToInfo f.body (functionStart f)).text.getLast? = some Mescc.ret
  · exact ⟨[], (if_pos h).trans (List.append_nil _).symm, .inl rfl⟩
  · exact ⟨_, if_neg h, .inr rfl⟩

theorem function_labels {f : Function} (h : ledS f.body = true) : ∃ ls : List Lbl, labelsOf (functionText f).flatten = ls.map (Lbl.str f.name) ∧ ls.Nodup ∧
    (looped false f.body = true → ∀ x ∈ targets (functionText f).flatten, x ∈ labelsOf (functionText f).flatten) := by
  obtain ⟨ls, hs⟩ := ast_labels f.body h (functionStart f)
  obtain ⟨t, ht, hor⟩ := functionText_parts f
  have l0 : labelsOf (functionStart f).text.flatten = [] := rfl
  have t0 : targets (functionStart f).text.flatten = [] := rfl
  have lt : labelsOf t.flatten = [] := by rcases hor with rfl | rfl <;> rfl
  have tt : targets t.flatten = [] := by rcases hor with rfl | rfl <;> rfl
  have hl : labelsOf (functionText f).flatten = ls.map (Lbl.str f.name) := by
    obtain ⟨u, hu, hu1, -⟩ := hs.emit.text
    rw [ht, hu, List.flatten_append, List.flatten_append, labelsOf_append, labelsOf_append, l0, lt, hu1, List.append_nil, List.nil_append]
    rfl
  refine ⟨ls, hl, hs.nodup, fun hlo x hx => ?_⟩
  obtain ⟨u, hu, -, hu2⟩ := (hs.closed hlo).text
  rw [ht, hu, List.flatten_append, List.flatten_append, targets_append, targets_append, t0, tt, List.append_nil, List.nil_append] at hx
  obtain ⟨l, hl1, hl2⟩ := hu2 x hx
  rw [hl, hl2]
  exact List.mem_map_of_mem hl1

theorem function_defined {f : Function} (h : wide f.body = true ∨ decls f.body ≤ 31) : AllDef (functionText f).flatten := by
  obtain ⟨t, ht, hor⟩ := functionText_parts f
  have h0 : AllDef (functionStart f).text.flatten := by
    show AllDef [functionPreamble ++ functionLocals].flatten
    exact allDef_one (List.all_eq_true.1 (by decide +kernel))
  have := (ast_def f.body (functionStart f) (h.imp_right fun h => by
    show newId (paramLocals (-2) f.params) + _ ≤ 32
    rw [paramLocals_newId]; omega) ⟨rfl, rfl, rfl⟩ h0).2
  rw [ht, List.flatten_append]
  refine AllDef.append this ?_
  rcases hor with rfl | rfl
  · exact fun l hl => (nomatch hl)
  · exact allDef_one (List.all_eq_true.1 ret_def)

/-! ## Programs -/

theorem programText_cons (f : Function) (fs : List Function) : programText (f :: fs) = .label f.name :: (functionText f).flatten ++ programText fs := by
  unfold programText
  rw [List.flatMap_cons]

theorem program_labels_mem {x : String} {fs : List Function} (hl : ∀ f ∈ fs, ledS f.body = true) (h : x ∈ labelsOf (programText fs)) :
    ∃ f ∈ fs, x = f.name ∨ ∃ l : Lbl, x = l.str f.name := by
  induction fs with
  | nil => cases h
  | cons f fs ih =>
    rw [programText_cons, labelsOf_append, labelsOf_label, List.cons_append] at h
    rcases List.mem_cons.1 h with h | h
    · exact ⟨f, List.mem_cons_self .., .inl h⟩
    · rcases List.mem_append.1 h with h | h
      · obtain ⟨ls, e, -⟩ := function_labels (hl f (List.mem_cons_self ..))
        rw [e] at h
        obtain ⟨l, _, h⟩ := List.mem_map.1 h
        exact ⟨f, List.mem_cons_self .., .inr ⟨l, h.symm⟩⟩
      · obtain ⟨g, hg, h⟩ := ih (fun g hg => hl g (List.mem_cons_of_mem _ hg)) h
        exact ⟨g, List.mem_cons_of_mem _ hg, h⟩

theorem Lbl.str_head (f : String) (l : Lbl) : ∃ x, l.str f = "_" ++ f ++ "_" ++ x :=
  ⟨numberString l.num ++ "_" ++ l.kind.str ++ pathStr l.path, by simp [Lbl.str, String.append_assoc]⟩

theorem program_nodup {fs : List Function} (hn : (fs.map Function.name).Nodup) (hl : ∀ f ∈ fs, ledS f.body = true)
    (hu : ∀ f ∈ fs, ∀ g ∈ fs, ∀ x, f.name ≠ "_" ++ g.name ++ "_" ++ x) : (labelsOf (programText fs)).Nodup := by
  have hs : ∀ f ∈ fs, ∀ g ∈ fs, ∀ l : Lbl, f.name ≠ l.str g.name := fun f hf g hg l e => by
    obtain ⟨x, hx⟩ := Lbl.str_head g.name l
    exact hu f hf g hg x (e.trans hx)
  clear hu
  induction fs with
  | nil => exact List.nodup_nil
  | cons f fs ih =>
    have mf := List.mem_cons_self (a := f) (l := fs)
    have ms : ∀ {g}, g ∈ fs → g ∈ f :: fs := fun hg => List.mem_cons_of_mem _ hg
    obtain ⟨hn1, hn2⟩ := List.nodup_cons.1 (show (f.name :: fs.map Function.name).Nodup from hn)
    have hne : ∀ g ∈ fs, g.name ≠ f.name := fun g hg e => hn1 (e ▸ List.mem_map_of_mem hg)
    have hl' : ∀ g ∈ fs, ledS g.body = true := fun g hg => hl g (ms hg)
    obtain ⟨ls, e, h1, -⟩ := function_labels (hl f mf)
    rw [programText_cons, labelsOf_append, labelsOf_label, List.cons_append, e]
    refine List.nodup_cons.2 ⟨fun hm => ?_, List.nodup_append.2 ⟨?_, ih hn2 hl' fun a ha b hb => hs a (ms ha) b (ms hb), fun x hx y hy exy => ?_⟩⟩
    · rcases List.mem_append.1 hm with hm | hm
      · obtain ⟨l, -, hm⟩ := List.mem_map.1 hm
        exact hs f mf f mf l hm.symm
      · obtain ⟨g, hg, h | ⟨l, h⟩⟩ := program_labels_mem hl' hm
        · exact hne g hg h.symm
        · exact hs f mf g (ms hg) l h
    · exact List.pairwise_map.2 (h1.imp fun {a b} hab e => hab (Lbl.str_inj e).2)
    · subst exy
      obtain ⟨l, -, hx⟩ := List.mem_map.1 hx
      obtain ⟨g, hg, h | ⟨l', h⟩⟩ := program_labels_mem hl' hy
      · exact hs g (ms hg) f mf l (h.symm.trans hx.symm)
      · exact hne g hg (Lbl.str_inj (h.symm.trans hx.symm)).1

theorem program_closed {fs : List Function} (hl : ∀ f ∈ fs, ledS f.body = true) (hc : ∀ f ∈ fs, looped false f.body = true) :
    ∀ x ∈ targets (programText fs), x ∈ labelsOf (programText fs) := by
  induction fs with
  | nil => exact fun x hx => (nomatch hx)
  | cons f fs ih =>
    intro x hx
    obtain ⟨ls, e, -, h⟩ := function_labels (hl f (List.mem_cons_self ..))
    rw [programText_cons, targets_append] at hx
    rw [programText_cons, labelsOf_append, labelsOf_label]
    rcases List.mem_append.1 hx with hx | hx
    · exact List.mem_append_left _ (List.mem_cons_of_mem _ (h (hc f (List.mem_cons_self ..)) x hx))
    · exact List.mem_append_right _ (ih (fun g hg => hl g (List.mem_cons_of_mem _ hg)) (fun g hg => hc g (List.mem_cons_of_mem _ hg)) x hx)

theorem program_defined {fs : List Function} (h : ∀ f ∈ fs, wide f.body = true ∨ decls f.body ≤ 31) : AllDef (programText fs) := by
  intro l hl
  obtain ⟨f, hf, hl⟩ := List.mem_flatMap.1 hl
  rcases List.mem_cons.1 hl with rfl | hl
  · rfl
  · exact function_defined (h f hf) l hl

/-! ## Calls -/

theorem program_split {f : Function} {fs : List Function} (hf : f ∈ fs) : ∃ pre post, programText fs = pre ++ (functionText f).flatten ++ post ∧
    ∃ p, pre = p ++ [.label f.name] := by
  obtain ⟨a, b, rfl⟩ := List.append_of_mem hf
  refine ⟨programText a ++ [.label f.name], programText b, ?_, _, rfl⟩
  rw [show programText (a ++ f :: b) = programText a ++ programText (f :: b) from List.flatMap_append, programText_cons]
  simp only [List.append_assoc, List.cons_append, List.nil_append]

theorem labelsAt_append {env : String → Word} : ∀ {ls ks : List Line} {a : Word}, LabelsAt env a (ls ++ ks) →
    LabelsAt env (a + BitVec.ofNat 32 (textSize ls)) ks
  | [], ks, a, h => by rw [show textSize [] = 0 from rfl, BitVec.add_zero]; exact h
  | l :: ls, ks, a, h => by
    have := labelsAt_append (ls := ls) h.2
    rwa [BitVec.add_assoc, ← BitVec.ofNat_add, show l.size + textSize ls = textSize (l :: ls) by simp [textSize]] at this

/-- A call of a function of an assembled program. -/
theorem program_called {f : Function} {fs : List Function} {args : List Int} {n : Nat} {v : Int} {base : Word} {bs : List Byte8} {room : Nat} {m : Mach}
    (hf : f ∈ fs) (hs : Sized f room) (hl : f.params.length = args.length) (hn : (labelsOf (programText fs)).Nodup)
    (ha : assemble (addresses base (programText fs)) base (programText fs) = some bs)
    (hm : Called base bs args room { m with eip := base }) (he : m.eip = addresses base (programText fs) f.name)
    (hr : FitsRun n f.body (enter f.params args)) (hc : call n f args = some v) : Returns m room args.length v := by
  obtain ⟨pre, post, e, p, hp⟩ := program_split hf
  have hL := addresses_labels _ base hn
  generalize addresses base (programText fs) = env at *
  rw [e] at ha hL
  refine called_in hs hl ha hL hm ?_ hr hc
  rw [he, hp]
  rw [hp, List.append_assoc, List.append_assoc] at hL
  rw [(labelsAt_append hL).1 f.name rfl]
  congr 2
  simp [textSize, Line.size]

end Mes.X86
