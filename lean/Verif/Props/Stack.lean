import Verif.Proof.Stack
import Verif.Proof.Start
import Verif.Props.Vector
/- Property C74: backtraces, /repo/src/stack.c. -/
namespace Mes.Props
open Res Spec

/-- `make-stack` gives a stack with as many frames as the evaluator has.  The first frame shows #f, the others show the procedures that are being called,
the oldest first; the newest, that of `make-stack` itself, is not shown.  All cells but one bucket of the symbol table stay as they are. -/
theorem C74_make_stack {s : St} {n : Nat} {H : List (List Byte × Int)} {fuel k : Nat} {pr : Int} (h : SymTable s n H) (hfix : Fixed s)
    (hp : lookup framePrinterName H = some pr) (hpf : pr ≠ c_f) (hm : 13 ≤ s.maxString) (hf : H.length + 1 < fuel) (hf2 : 2 < fuel) (hs0 : 0 ≤ s.sp)
    (hsp : s.sp = s.stackSize - 5 * k) (hv : ∀ a ∈ calls s k, s.Valid a ∧ Solid (s.cell a).tag) (hr : Room s (38 * k + 40)) :
    ∃ x v fs s', makeStack s fuel = ok (x, s') ∧ StackOf s' x v fs ∧ fs.length = k ∧
      (∀ (i : Nat) f, fs[i]? = some f → ∃ p, (c_f :: calls s k)[i]? = some p ∧ FrameOf s' f p) ∧
      Frame (· = bucketCell s s.symbols n framesName) s s' := by
  obtain ⟨x, v, fs, s', h1, h2, h3, h4, h5, -⟩ := makeStack_ok h hfix hp hpf hm hf hf2 hs0 hsp hv hr
  exact ⟨x, v, fs, s', h1, h2, h3, h4, h5⟩

/-- `stack-length` gives the number of frames. -/
theorem C74_stack_length {s : St} {x v : Int} {fs : List Int} (h : StackOf s x v fs) (hr : Room s 2) :
    ∃ r s', stackLength s x = ok (r, s') ∧ IsNum s' r fs.length ∧ Ext s s' := by
  obtain ⟨ty, u, h1, h2⟩ := h
  obtain ⟨r, s1, a1, ⟨rfl, -⟩, a3, -, -⟩ := fetch_ok (hr.mono (by omega)) (h1.entry 3 (.obj v) rfl)
  have hl : s1.free ≤ s.free := by
    have hq : EntryAt s ((s.cell x).cdr + 3) (.obj r) := h1.entry 3 (.obj r) rfl
    obtain ⟨g1, g2, g3, g4, g5⟩ := hq
    have he : fetch s ((s.cell x).cdr + 3) = ok (r, s) := by simp [fetch, deref, g1, g2, g3, g4, g5.1, g5.2.1]
    have a1' : fetch s ((s.cell x).cdr + 3) = ok (r, s1) := a1
    rw [he] at a1'
    cases a1'
    exact Int.le_refl _
  have h3 := h2.ext a3
  have hr1 : Room s1 1 := hr.step a3 (by omega)
  refine ⟨s1.free, _, ?_, ?_, a3.trans (push_ext s1 { tag := .number, car := 0, cdr := (fs.length : Int) })⟩
  · rw [stackLength]
    simp only [structRef, St.rd_ok h1.valid, ok_bind, assert_true h1.tag, h1.length]
    rw [assert_true (show (3 : Int) < (([ty, u, Val.obj c_symbol_stack, Val.obj r] : List Val).length : Int) by simp)]
    have a1' : fetch s ((s.cell x).cdr + 3) = ok (r, s1) := a1
    simp only [ok_bind, a1', vectorLength, St.rd_ok h3.valid, assert_true h3.tag, h3.length, List.length_map, makeNumber_ok hr1]
  · exact hr1.push_isNum _

/-- `stack-ref` gives the frame, for each index below the number of frames. -/
theorem C74_stack_ref {s : St} {x v : Int} {fs : List Int} (h : StackOf s x v fs) {i : Nat} {f : Int} (hi : fs[i]? = some f) (hr : Room s 2) :
    ∃ s', stackRef s x i = ok (f, s') ∧ Ext s s' := by
  obtain ⟨ty, u, h1, h2⟩ := h
  obtain ⟨r, s1, a1, ⟨rfl, -⟩, a3, -⟩ := structRef_val (i := 3) (hr.mono (by omega)) h1 rfl
  have hl : s1.free ≤ s.free + 1 := by
    obtain ⟨r', s1', b1, -, -, b4, -⟩ := fetch_ok (hr.mono (by omega)) (h1.entry 3 (.obj r) rfl)
    simp only [structRef, St.rd_ok h1.valid, ok_bind, assert_true h1.tag, h1.length] at a1
    rw [assert_true (show ((3 : Nat) : Int) < (([ty, u, Val.obj c_symbol_stack, Val.obj r] : List Val).length : Int) by simp)] at a1
    simp only [ok_bind] at a1
    have b1' : fetch s ((s.cell x).cdr + ((3 : Nat) : Int)) = ok (r', s1') := b1
    rw [b1'] at a1
    cases a1
    exact b4
  obtain ⟨q, s2, c1, ⟨rfl, -⟩, c3, -⟩ := vectorRef_val (i := i) (v := .obj f) (hr.step a3 (l := 1) (by omega)) (h2.ext a3) (by rw [List.getElem?_map, hi]; rfl)
  refine ⟨s2, ?_, a3.trans c3⟩
  rw [stackRef]
  have a1' : structRef s x 3 = ok (r, s1) := a1
  simp only [a1', ok_bind, c1]

/-- A state with two calls: a stack of ten entries, all of them #t. -/
example : ∃ (s : St) (fuel : Nat) (x v f g : Int) (s' : St), makeStack s fuel = ok (x, s') ∧ StackOf s' x v [f, g] ∧ FrameOf s' f c_f ∧ FrameOf s' g c_t := by
  obtain ⟨s0, -, h2, h3, h4, h5, h6, h7, -⟩ := initSymbols_start (s := { Spec.sample [] with arena := 10000, maxString := 100 }) (fuel := 5) (by decide) (by decide) (by decide)
  have h6' : s0.arena = 10000 := h6
  have h7' : s0.maxString = 100 := h7
  have hr0 : Room s0 5000 := ⟨h5, by unfold g_cells; omega⟩
  have hnone : lookup framePrinterName (stored predefined c_nil []) = none := by decide +kernel
  have hlen : (stored predefined c_nil []).length + 1 + 1 < 1000 := by decide +kernel
  obtain ⟨s1, a1, a2, a3, a4⟩ := makeString_ok (s := s0) (bs := framePrinterName) (by rw [h7']; decide) (hr0.mono (by decide))
  have hl : stringCells framePrinterName.length = 6 := by decide
  obtain ⟨r, s2, g1, g2, g3⟩ := stringToSymbol_ok (fuel := 1000) (h2.ext a3) a2 (by decide) (by decide +kernel) (hr0.step a3 (by omega))
  rcases g3 with ⟨k1, -⟩ | ⟨-, k2, k3, k4, k5⟩
  · rw [hnone] at k1; cases k1
  · have hle := a3.le
    have hfix : Fixed s2 := fun a ha1 ha2 => by
      have e1 : s1.cell a = s0.cell a := a3.same a (by omega) id
      have hne : a ≠ bucketCell s1 s1.symbols 500 framePrinterName := fun e => by
        have hbt : (s1.cell (bucketCell s1 s1.symbols 500 framePrinterName)).tag = .ref :=
          (h2.ext a3).table.btag _ (slot_lt (n := 500) framePrinterName (h2.ext a3).table.pos)
        rw [← e, e1, h3 a ha1 ha2] at hbt
        split at hbt <;> cases hbt
      rw [k5.same a (by omega) hne, e1]
      exact h3 a ha1 ha2
    let s3 : St := { s2 with stack := fun _ => c_t, stackSize := 10, sp := 0 }
    have hsame : SameCells s2 s3 := ⟨rfl, rfl⟩
    have har : s2.arena = 10000 := by rw [k5.arena, a3.arena, h6']
    have hmx : s2.maxString = 100 := by rw [k5.maxString, a3.maxString, h7']
    have hfree : s0.free ≤ s2.free := Int.le_trans hle k5.le
    have hr3 : Room s3 (38 * (2 : Nat) + 40) := ⟨Int.le_trans h5 hfree, by
      show s2.free + _ - g_cells ≤ s2.arena
      unfold g_cells
      omega⟩
    have hct : s3.Valid c_t ∧ Solid (s3.cell c_t).tag := by
      obtain ⟨-, h⟩ := Basics.of_fixed (s := s3) hfix hr3 c_t (by decide) (by decide)
      exact h
    have hrne : r ≠ c_f := by
      have : c_f < c_symbol_max := by decide
      omega
    obtain ⟨x, v, fs, s', e1, e2, e3, e4, -⟩ := C74_make_stack (s := s3) (fuel := 1000) (k := 2) (pr := r) (k4.same hsame rfl) hfix
      (by simp [lookup]) hrne (by show 13 ≤ s2.maxString; omega) (by rw [List.length_cons]; exact hlen) (by decide) (Int.le_refl 0) rfl
      (fun a ha => by
        have : a = c_t := by
          unfold calls at ha
          obtain ⟨j, -, rfl⟩ := List.mem_map.1 ha
          rfl
        subst this
        exact hct) hr3
    match fs, e3 with
    | [f, g], _ =>
      obtain ⟨p, p1, p2⟩ := e4 0 f rfl
      obtain ⟨q, q1, q2⟩ := e4 1 g rfl
      have : (c_f :: calls s3 2)[1]? = some c_t := rfl
      rw [this] at q1
      cases p1
      cases q1
      exact ⟨s3, 1000, x, v, f, g, s', e1, e2, p2, q2⟩

end Mes.Props
