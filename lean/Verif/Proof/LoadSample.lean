import Verif.Proof.EvalSample
import Verif.Proof.Program
/-
A concrete memory for the examples about loading: as in `Proof/EvalSample.lean`, and the names of the special forms have their
texts, and there is a table of macros.  The program of an example comes behind it.
-/
namespace Mes.Spec

/-- The bytes of a name, in three cells. -/
def textCells (bs : List Byte) : List Cell := [{ tag := .bytes, car := bs.length + 1, cdr := 0, bytes := bs ++ [0] }, num 0, num 0]

/-- "portable-macro-expand" -/
def portableName : List Byte := [112, 111, 114, 116, 97, 98, 108, 101, 45, 109, 97, 99, 114, 111, 45, 101, 120, 112, 97, 110, 100]

/-- The cells from 198 to 220: names, and a table of macros with one bucket, in which there is nothing. -/
def loadCells : List Cell :=
  textCells [105, 102] ++ textCells [115, 101, 116, 33] ++ textCells [98, 101, 103, 105, 110] ++ textCells [100, 101, 102, 105, 110, 101] ++
  textCells portableName ++
  [{ tag := .struct, car := 5, cdr := 214 }, refCell c_f, refCell c_f, refCell c_f, num 1, refCell 219,
   { tag := .vector, car := 1, cdr := 220 }, refCell c_unspecified]

/-- The predefined cells. -/
def loadFixed (a : Int) : Cell :=
  if a = c_symbol_if then { tag := .symbol, car := 2, cdr := 198 }
  else if a = c_symbol_set_x then { tag := .symbol, car := 4, cdr := 201 }
  else if a = c_symbol_begin then { tag := .symbol, car := 5, cdr := 204 }
  else if a = c_symbol_define then { tag := .symbol, car := 6, cdr := 207 }
  else if a = c_symbol_portable_macro_expand then { tag := .symbol, car := 21, cdr := 210 }
  else { tag := if a < 46 then .special else .symbol, car := 0, cdr := c_nil }

/-- The memory with the program `code` from address 221 on, and its forms at `c`; the arena has `n` cells, and the frame on the stack
returns to C. -/
def loadMem (n : Int) (code : List Cell) (c : Int) : St :=
  { prog (loadCells ++ code) c with
    cell := fun a => if a < c_symbol_max then loadFixed a else (prog (loadCells ++ code) c).cell a
    arena := n
    limit := 2 * n + 3
    macros := 213
    r3 := c_vm_begin_expand }

/-- `L` are the pairs of the program. -/
@[reducible] def loadGhost (L : List Int) : Ghost where
  name x := if x = c_symbol_if then [105, 102] else if x = c_symbol_set_x then [115, 101, 116, 33]
    else if x = c_symbol_begin then [98, 101, 103, 105, 110] else if x = c_symbol_define then [100, 101, 102, 105, 110, 101]
    else if x = c_symbol_portable_macro_expand then portableName else progGhost.name x
  loc l := 151 + l
  count := 4
  chg a := progGhost.chg a ∨ a ∈ L
  src a := a ∈ L

@[reducible] def loadNames : Idents := ⟨fun x => c_symbol_max ≤ x ∨ x ∈ formNames, fun _ => True⟩

end Mes.Spec

namespace Mes
open Res Spec

variable {n : Int} {code : List Cell} {c : Int} {L : List Int} {mes : Bool}

theorem loadMem_free (n : Int) (code : List Cell) (c : Int) : (loadMem n code c).free = 221 + code.length := by
  show (prog (loadCells ++ code) c).free = _
  rw [prog_free, List.length_append]
  have : loadCells.length = 23 := rfl
  rw [this]; omega

theorem loadMem_cell (n : Int) (code : List Cell) (c : Int) {a : Int} (h : a < 221) : (loadMem n code c).cell a = (loadMem 0 [] 0).cell a := by
  simp only [loadMem, prog, sampleN]
  split
  · rfl
  · rename_i h1
    simp only [c_symbol_max] at h1 ⊢
    have e : (a - 116).toNat < (baseCells ++ loadCells).length := by show _ < 105; omega
    rw [List.append_nil, ← List.append_assoc, List.getD_eq_getElem?_getD, List.getD_eq_getElem?_getD, List.getElem?_append_left e]

theorem loadMem_grow (n : Int) (code : List Cell) (c : Int) : Grow (loadMem 0 [] 0) (loadMem n code c) :=
  ⟨by rw [loadMem_free, loadMem_free]; simp; omega, fun a ha => loadMem_cell n code c (by rw [loadMem_free] at ha; simpa using ha)⟩

/-- The pairs of the program are behind the rest of the memory. -/
theorem loadMem_later (n : Int) (code : List Cell) (c : Int) (hL : ∀ a ∈ L, 221 ≤ a) :
    Later (loadGhost []) (loadMem 0 [] 0) (loadGhost L) (loadMem n code c) := by
  have hg := loadMem_grow n code c
  have hn : ∀ a, a < (loadMem 0 [] 0).free → a ∉ L := fun a ha h => by
    rw [loadMem_free] at ha
    have := hL a h
    have ha : a < 221 := by simpa using ha
    omega
  exact ⟨hg.le, fun a ha _ => hg.same a ha, fun a ha => by rw [hg.same a ha], fun a ha _ _ => by rw [hg.same a ha], Nat.le_refl _, fun _ _ => rfl,
    fun a ha h => .inl (h.resolve_right (hn a ha)), fun a _ h _ => h.elim .inl (by simp), rfl, fun a ha h => absurd h (hn a ha),
    fun a ha h => absurd h (hn a ha), nofun, fun a _ h => by simp at h, rfl⟩

theorem load_builtin : IsBuiltin (loadMem 0 [] 0) (loadGhost []).chg 130 (-1) 198 ∧
    IsBuiltin (loadMem 0 [] 0) (loadGhost []).chg 137 (-1) 199 ∧ IsBuiltin (loadMem 0 [] 0) (loadGhost []).chg 144 (-1) 200 := by
  refine ⟨⟨?_, rfl, rfl, ?_, ?_, rfl, rfl, ?_, ⟨?_, rfl, rfl⟩, ?_, ⟨?_, rfl, rfl⟩, ?_⟩,
    ⟨?_, rfl, rfl, ?_, ?_, rfl, rfl, ?_, ⟨?_, rfl, rfl⟩, ?_, ⟨?_, rfl, rfl⟩, ?_⟩,
    ⟨?_, rfl, rfl, ?_, ?_, rfl, rfl, ?_, ⟨?_, rfl, rfl⟩, ?_, ⟨?_, rfl, rfl⟩, ?_⟩⟩ <;> decide

theorem load_table : Globals (loadMem 0 [] 0) (loadGhost []) 162 1 [(y_eq, 151), (y_minus, 152), (y_plus, 153), (y_x, 154)] := by
  have hf : ([(y_eq, 151), (y_minus, 152), (y_plus, 153), (y_x, 154)] : List (Int × Int)).filter
      (fun e => slot 1 ((loadGhost []).name e.1) = 0) = [(y_eq, 151), (y_minus, 152), (y_plus, 153), (y_x, 154)] := by decide
  have fp : ∀ p, p ∈ [156, 157, 158, (159 : Int)] → FixedPair (loadMem 0 [] 0) (loadGhost []).chg p := by
    intro p hp
    simp only [List.mem_cons, List.not_mem_nil, or_false] at hp
    rcases hp with rfl | rfl | rfl | rfl <;> exact ⟨by decide, by decide, rfl, by decide⟩
  have zero : ∀ i : Nat, i < 1 → i = 0 := by omega
  refine ⟨by decide, rfl, rfl, by decide, ⟨by decide, rfl, rfl⟩, by decide, by decide, rfl, by decide, by decide, rfl, rfl, by decide, by decide, by decide,
    fun i hi => ?_, fun i hi => ?_, fun i hi => ?_, fun i hi => ?_, fun i hi => ?_, ?_, ?_⟩
  · rw [zero i hi]; decide
  · rw [zero i hi]; rfl
  · rw [zero i hi]; decide
  · rw [zero i hi]; decide
  · rw [zero i hi, hf]
    refine ⟨fun h => absurd h (by decide), fun _ => ?_⟩
    exact .cons (fp 156 (by decide)) (.cons (fp 157 (by decide)) (.cons (fp 158 (by decide)) (.cons (fp 159 (by decide)) .nil)))
  · decide
  · decide

theorem loadBase_lookup : ∀ x, lookup x [(y_eq, 151), (y_minus, 152), (y_plus, 153), (y_x, 154)] = (progStore.globals x).map fun l : Nat => 151 + (l : Int) := by
  intro x
  simp only [lookup, progStore]
  by_cases h1 : x = y_eq
  · subst h1; rfl
  rw [if_neg (Ne.symm h1), if_neg h1]
  by_cases h2 : x = y_minus
  · subst h2; rfl
  rw [if_neg (Ne.symm h2), if_neg h2]
  by_cases h3 : x = y_plus
  · subst h3; rfl
  rw [if_neg (Ne.symm h3), if_neg h3]
  by_cases h4 : x = y_x
  · subst h4; rfl
  rw [if_neg (Ne.symm h4), if_neg h4]
  rfl

theorem loadBase_world (mes : Bool) : World (loadMem 0 [] 0) (loadGhost []) mes progStore := by
  obtain ⟨b1, b2, b3⟩ := load_builtin
  have hb := base_world mes
  refine ⟨by decide, ?_, rfl, rfl, ?_, ?_, ?_, ?_, ?_, ⟨by decide, rfl, by decide, by decide, by decide, rfl, by decide⟩, ⟨1, _, load_table, ?_⟩, hb.global,
    nofun, nofun, nofun⟩
  · intro a h1 h2
    simp only [loadMem, prog, sampleN]
    rw [if_pos h2]
    unfold loadFixed
    repeat' split
    all_goals first | rfl | (subst_vars; contradiction)
  · rintro a ((rfl | rfl | rfl | rfl | rfl) | h)
    · decide
    · decide
    · decide
    · decide
    · decide
    · cases h
  · exact fun l hl => .inl (hb.chg l hl)
  · exact hb.inj
  · intro l hl
    have hl : l < 4 := hl
    match l, hl with
    | 0, _ => decide
    | 1, _ => decide
    | 2, _ => decide
    | 3, _ => decide
  · intro l v h
    match l with
    | 0 => cases h; exact .prim b1
    | 1 => cases h; exact .prim b2
    | 2 => cases h; exact .prim b3
    | 3 => cases h; exact .int ⟨by decide, rfl, rfl⟩ (by decide)
    | l + 4 => simp [progStore] at h
  · exact loadBase_lookup

/-- The memory holds the store, whatever program comes behind it. -/
theorem load_world (n : Int) (code : List Cell) (c : Int) (hL : ∀ a ∈ L, 221 ≤ a ∧ a < 221 + (code.length : Int)) :
    World (loadMem n code c) (loadGhost L) mes progStore := by
  have hw := loadBase_world mes
  have h := loadMem_grow n code c
  have hl := loadMem_later n code c fun a ha => (hL a ha).1
  obtain ⟨m1, m2, m3, m4, m5, m6, m7⟩ := hw.module
  have e1 := hl.keep m1 m4
  have e2 := hl.keep m5 m7
  have hm : (loadMem n code c).m0 = (loadMem 0 [] 0).m0 := rfl
  refine ⟨Int.le_trans hw.base h.le, hw.tags.later hw.base hl, ?_, hw.count, ?_,
    fun l hl => .inl ((hw.chg l hl).resolve_right (by simp)), hw.inj, ?_, ?_, ?_, ?_, hw.global, nofun, fun a h => .inr h, ?_⟩
  · rw [h.same _ (by decide)]; exact hw.begin
  · intro a ha
    rw [loadMem_free]
    rcases ha with ha | ha
    · have := hw.below a (.inl ha)
      rw [loadMem_free] at this
      have : a < 221 := by simpa using this
      omega
    · exact (hL a ha).2
  · intro l hlt
    obtain ⟨h1, h2⟩ := hw.pair l hlt
    exact ⟨h.valid h1, by rw [hl.tag _ h1.2]; exact h2⟩
  · intro l v hv
    have hlt : l < 4 := (List.getElem?_eq_some_iff.1 hv).1
    rw [h.same _ (hw.pair l hlt).1.2]
    exact (hw.holds l v hv).later hl
  · rw [hm, e1, e2]
    exact ⟨h.valid m1, m2, m3, fun h' => m4 (hl.chg _ m1.2 h'), h.valid m5, m6, fun h' => m7 (hl.chg _ m5.2 h')⟩
  · refine ⟨1, _, ?_, loadBase_lookup⟩
    rw [hm, e1, e2]
    exact load_table.later hl (fun i hi => h.same _ (by
      have : i = 0 := by omega
      rw [this]; decide))
  · intro l hlt h'
    have hlt : l < 4 := hlt
    have := (hL _ h').1
    have h2 : 221 ≤ 151 + (l : Int) := this
    omega

theorem load_name (n : Int) (code : List Cell) (c : Int) (hL : ∀ a ∈ L, 221 ≤ a) {x : Int}
    (h : x ∈ [y_f, y_n, y_a, y_eq, y_minus, y_plus, y_x, c_symbol_if, c_symbol_set_x, c_symbol_begin, c_symbol_define, c_symbol_portable_macro_expand]) :
    IsName (loadMem n code c) (loadGhost L) x := by
  have h' : IsName (loadMem 0 [] 0) (loadGhost []) x := by
    simp only [List.mem_cons, List.not_mem_nil, or_false] at h
    rcases h with rfl | rfl | rfl | rfl | rfl | rfl | rfl | rfl | rfl | rfl | rfl | rfl <;>
      exact ⟨⟨by decide, rfl, by decide, rfl, by decide⟩, rfl, by decide, by decide, by decide⟩
  exact h'.later (loadMem_later n code c hL)

theorem load_scope (n : Int) (code : List Cell) (c : Int) (hL : ∀ a ∈ L, 221 ≤ a) :
    IsScope (loadMem n code c) (loadGhost L) loadNames (loadMem n code c).r0 fun _ => none := by
  have h : IsScope (loadMem 0 [] 0) (loadGhost []) loadNames 176 fun _ => none := by
    refine ⟨⟨by decide, by decide, rfl, by decide⟩, by decide, rfl, by decide, by decide, by decide, fun x hx => ⟨.nil, nofun⟩, fun _ _ => rfl⟩
  exact h.later (loadMem_later n code c hL)

theorem slot_one (bs : List Byte) : slot 1 bs = 0 := Nat.mod_one _

/-- There are no macros. -/
theorem load_notMacro (n : Int) (code : List Cell) (c : Int) (hL : ∀ a ∈ L, 221 ≤ a) (x : Int) :
    NotMacro (loadMem n code c) (loadGhost L) 1 x := by
  have e : macroBucket (loadMem n code c) (loadGhost L) 1 x = 220 := by
    unfold macroBucket bucketsOf
    rw [slot_one]
    show ((loadMem n code c).cell ((loadMem n code c).cell (((loadMem n code c).cell 213).cdr + 4)).car).cdr + ((0 : Nat) : Int) = 220
    rw [loadMem_cell n code c (a := 213) (by decide)]
    rw [loadMem_cell n code c (a := ((loadMem 0 [] 0).cell 213).cdr + 4) (by decide)]
    rw [loadMem_cell n code c (by decide)]
    rfl
  have h := (loadMem_grow n code c).valid (a := 220) (by decide)
  have hf : ¬ (loadGhost L).chg 220 := fun h' => absurd ((loadMem_later n code c hL).chg 220 (by decide) h') (by decide)
  exact ⟨by rw [e]; exact h, by rw [e, loadMem_cell n code c (by decide)]; rfl, by rw [e]; exact hf,
    .inl (by rw [e, loadMem_cell n code c (by decide)]; rfl)⟩

theorem load_macros (n : Int) (code : List Cell) (c : Int) (hL : ∀ a ∈ L, 221 ≤ a) : MacroTable (loadMem n code c) (loadGhost L) 1 := by
  have h : MacroTable (loadMem 0 [] 0) (loadGhost []) 1 := by
    refine ⟨by decide, rfl, rfl, by decide, ⟨by decide, rfl, rfl⟩, by decide, by decide, rfl, by decide, by decide, rfl, rfl, by decide, by decide, by decide⟩
  exact h.later (loadMem_later n code c hL) rfl

theorem load_pre (n : Int) (code : List Cell) (c : Int) (hL : ∀ a ∈ L, 221 ≤ a ∧ a < 221 + (code.length : Int)) :
    ProgramPre mes progStore (loadGhost L) 1 loadNames (loadMem n code c) := by
  have hL' : ∀ a ∈ L, 221 ≤ a := fun a ha => (hL a ha).1
  refine ⟨⟨⟨load_world n code c hL, load_macros n code c hL', load_name n code c hL' (by decide), load_notMacro n code c hL' _⟩,
    fun x _ => load_notMacro n code c hL' x, fun x hx => ⟨load_name n code c hL' ?_, load_notMacro n code c hL' x⟩⟩, load_scope n code c hL', ?_,
    fun _ => trivial, ?_⟩
  · revert x; decide
  · show ((loadMem n code c).cell ((loadMem n code c).cell 176).car).car ≠ c_closure
    rw [loadMem_cell n code c (a := 176) (by decide)]
    rw [loadMem_cell n code c (by decide)]
    decide
  · intro x hx
    refine ⟨.inr hx, ?_⟩
    revert x; decide

theorem load_ready (code : List Cell) (c : Int) (k : Nat) : Ready (loadMem (221 + code.length + k + 1000) code c) k 100 := by
  have hs : (loadMem (221 + code.length + k + 1000) code c).safety = 100 := rfl
  refine ⟨?_, by rw [hs]; decide, ?_, by show 5 * (100 : Int) ≤ 995; decide, by show (995 : Int) + 5 ≤ 1000; decide⟩
  · rw [loadMem_free]; simp only [c_symbol_max]; omega
  · rw [loadMem_free, hs]
    show _ ≤ 221 + (code.length : Int) + k + 1000
    omega

/-- The program does not depend on the size of the arena and on the register. -/
theorem loadMem_same (n : Int) (code : List Cell) (c : Int) : Grow (loadMem 0 code 0) (loadMem n code c) := ⟨Int.le_refl _, fun _ _ => rfl⟩

/-- The program at `c` is to be loaded. -/
theorem load_at {n : Int} {code : List Cell} {c : Int} {fs : List Toplevel} (hL : ∀ a ∈ L, 221 ≤ a ∧ a < 221 + (code.length : Int))
    (h : IsProgram (loadMem 0 code 0) (loadGhost L) mes loadNames c fs L) :
    AtProgram (loadMem n code c) (loadGhost L) mes 1 loadNames progStore fs L :=
  ⟨⟨rfl, rfl⟩, load_pre n code c hL, h.grow (loadMem_same n code c), fun _ _ => id⟩

/-- The form at `c` is to be evaluated. -/
theorem source_at {n : Int} {code : List Cell} {c : Int} {f : Toplevel} {L' : List Int} (hL : ∀ a ∈ L, 221 ≤ a ∧ a < 221 + (code.length : Int)) (hs : ∀ a ∈ L', a ∈ L)
    (h : IsTop (loadMem 0 code 0) (loadGhost L) mes loadNames c f L') :
    AtSource { loadMem n code c with r3 := c_vm_eval } ((loadGhost L).now L) mes loadNames progStore f L' := by
  have hp := (load_pre (mes := mes) n code c hL).now L
  have hg : Grow (loadMem n code c) { loadMem n code c with r3 := c_vm_eval } := ⟨Int.le_refl _, fun _ _ => rfl⟩
  have hl := hg.later ((loadGhost L).now L)
  exact ⟨⟨rfl, rfl⟩, hp.free.macros.world.grow hg rfl, ((h.grow (loadMem_same n code c)).now L).grow hg, hp.scope.later hl, hp.key, hp.names,
    fun x hx => ⟨(hp.free.heads x (List.mem_cons_of_mem _ hx)).1.later hl, hp.forms x hx⟩, fun a ha => .inr (hs a ha)⟩

end Mes
