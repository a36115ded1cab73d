import Verif.Proof.GcPath
import Verif.Spec.Sample
/-
Properties C01, C02 and C03: the garbage collector (/repo/src/gc.c:323-722).
-/
namespace Mes.Props
open Res Spec

/-- A memory with the given cells, from address 116 on, and `n` cells for the collector to copy to; the predefined cells
refer to `()`. -/
def heapN (n jam : Int) (cells : List Cell) : St :=
  { sampleN n cells with
    cell := fun a => if a < c_symbol_max then { tag := if a < 46 then .special else .symbol, car := 0, cdr := c_nil }
      else cells.getD (a - c_symbol_max).toNat default
    jam := jam, limit := 1 + n + jam, symbols := c_nil, macros := c_nil }

def heap (cells : List Cell) : St := heapN 1000 100 cells

/-- Some shared and circular data: a circular list of a string and a vector, the vector holding the string and a number; the
string is also on the stack, the vector also in a register; and one number is garbage. -/
def shared : St :=
  { heap [pair 117 121, { tag := .string, car := 3, cdr := 118 },
      { tag := .bytes, car := 3, cdr := 0, bytes := [97, 98, 99] }, default, default,
      pair 122 116, { tag := .vector, car := 2, cdr := 123 }, { tag := .ref, car := 117, cdr := 0 }, num 7, num 8] with
    r1 := 116, r2 := 122, sp := 49, stack := fun _ => 117 }

/-- Its objects. -/
def sharedObjects : List Int := (List.range 113).map (fun i : Nat => 3 + (i : Int)) ++ [116, 117, 118, 121, 122]

theorem shared_sound : Sound shared :=
  Gc.sound_of_check (l := sharedObjects) (by decide +kernel)

/-- There is room for a copy of everything that is allocated. -/
def Roomy (s : St) : Prop := 2 * s.free ≤ s.limit + 1

instance (s : St) : Decidable (Roomy s) := by unfold Roomy; infer_instance

theorem Roomy.space {s : St} (hs : Sound s) (h : Roomy s) : s.free + 2 + liveSize s ≤ s.limit := by
  have := Gc.liveSize_le hs
  unfold Roomy at h
  omega

/-! ### C01 -/

/-- C01: a collection is invisible.  For every sound memory, of any size and shape, with the reachable data fitting into what
is left of the arena, the collection ends, and afterwards every access path from every root leads to the same data as before,
and two paths lead to the same object if and only if they did before.  (Partial: `Sound` excludes lists made by
`vector->list`, see `C01_vector_to_list_false`; data that do not fit are the subject of C03.) -/
theorem C01_gc_invisible_partial (s : St) (fuel : Nat) (hs : Sound s) (hspace : s.free + 2 + liveSize s ≤ s.limit)
    (hsp : 5 ≤ s.sp) (hf : liveSize s + 2 < fuel) :
    ∃ s', gc s fuel = ok s' ∧ SameGraph s s' ∧ Sound s' := by
  obtain ⟨L, s', h1, h2⟩ := Gc.gc_ok hs hspace hsp hf
  exact ⟨s', h1, Gc.sameGraph h2.iso, h2.sound hs⟩

/-- The same with a bound that can be read off the registers. -/
theorem C01_gc_invisible_roomy_partial (s : St) (fuel : Nat) (hs : Sound s) (hr : Roomy s) (hsp : 5 ≤ s.sp)
    (hf : s.free < fuel) : ∃ s', gc s fuel = ok s' ∧ SameGraph s s' ∧ Sound s' :=
  C01_gc_invisible_partial s fuel hs (hr.space hs) hsp (by have := Gc.liveSize_le hs; omega)

example : Sound shared ∧ Roomy shared ∧ 5 ≤ shared.sp ∧ shared.free < 200 :=
  ⟨shared_sound, by decide, by decide, by decide⟩

/-- The paths are there, and the sharing is: the string in the circular list, after one turn, in the vector, and on the
stack. -/
example : lookPath shared .r1 [.car] = some 117 ∧ lookPath shared .r1 [.cdr, .cdr, .car] = some 117 ∧
    lookPath shared .r2 [.element 0] = some 117 ∧ lookPath shared (.stack 49) [] = some 117 ∧
    lookPath shared .r1 [.cdr, .car] = some 122 ∧ (view shared 118).2.1 = [97, 98, 99] := by decide +kernel

/-- C01 for memories with a list that `vector->list` has just made and that is kept in a register. -/
def C01_vector_to_list_full : Prop :=
  ∀ (s s1 : St) (v l : Int) (fuel : Nat), Sound s → Reach s v → vectorToList s v = ok (l, s1) → Roomy s1 → 5 ≤ s1.sp →
    s1.free < fuel → ∃ s', gc { s1 with r1 := l } fuel = ok s' ∧ SameGraph { s1 with r1 := l } s'

/-- The vector `#(7)` in a list. -/
def aliased : St := { heap [pair c_nil 117, { tag := .vector, car := 1, cdr := 118 }, num 7] with r0 := 116 }

theorem aliased_sound : Sound aliased :=
  Gc.sound_of_check (l := (List.range 113).map (fun i : Nat => 3 + (i : Int)) ++ [116, 117]) (by decide +kernel)

/-- That is false: the list refers to the cells inside the vector; the collector moves such a cell by itself, then copies the
vector with the forwarding mark in it, and stops the program when it finds the mark. -/
theorem C01_vector_to_list_false : ¬ C01_vector_to_list_full := by
  intro h
  have hv : Reach aliased 117 := .cdr (a := 116) (.root .r0) rfl
  have e : (vectorToList aliased 117 >>= fun p => ok (p.1, p.2.free, p.2.sp)) = ok (119, 120, 50) := by decide +kernel
  have g : (vectorToList aliased 117 >>= fun p => gc { p.2 with r1 := p.1 } 200 >>= fun t => ok t.free) = abort := by
    decide +kernel
  have lim : (vectorToList aliased 117 >>= fun p => ok p.2.limit) = ok 1101 := by decide +kernel
  cases hm : vectorToList aliased 117 with
  | ok p =>
    rw [hm] at e g lim
    simp only [ok_bind, ok.injEq, Prod.mk.injEq] at e g lim
    obtain ⟨s', h1, -⟩ := h aliased p.2 117 p.1 200 aliased_sound hv hm (by unfold Roomy; omega) (by omega) (by omega)
    rw [h1] at g
    cases g
  | _ => rw [hm] at e; cases e

/-! ### C02 -/

/-- C02: a collection reclaims everything that is not reachable and packs the rest: what is allocated afterwards are exactly
the cells of the objects that were reachable, starting at the first address; every allocated cell is part of a reachable
object; not more memory is used than before; and collecting again changes nothing. -/
theorem C02_gc_compacts_partial (s : St) (fuel : Nat) (hs : Sound s) (hspace : s.free + 2 + liveSize s ≤ s.limit)
    (hsp : 5 ≤ s.sp) (hf : liveSize s + 2 < fuel) :
    ∃ s', gc s fuel = ok s' ∧ s'.free = c_nil + liveSize s ∧ liveSize s' = liveSize s ∧ s'.free ≤ s.free ∧
      (∀ x, c_nil ≤ x → x < s'.free → ∃ a, Reach s' a ∧ Owns s' a x) ∧
      ∃ s'', gc s' fuel = ok s'' ∧ s''.free = s'.free := by
  obtain ⟨L, s', h1, h2⟩ := Gc.gc_ok hs hspace hsp hf
  have hfree : s'.free = 3 + liveSize s := by rw [h2.free, Gc.total_eq hs h2.nodup h2.reach]
  have hle := Gc.liveSize_le hs
  have hlive : liveSize s' = liveSize s := h2.liveSize hs
  have hs' := h2.sound hs
  have hl := h2.iso.limit
  have hsp' := h2.iso.sp
  obtain ⟨L', s'', g1, g2⟩ := Gc.gc_ok hs' (by omega) (by omega) (fuel := fuel) (by omega)
  refine ⟨s', h1, hfree, hlive, by omega, fun x hx hx' => h2.packed hs hx hx', s'', g1, ?_⟩
  rw [g2.free, Gc.total_eq hs' g2.nodup g2.reach, hlive, hfree]

/-- In the example the garbage number at 125 is reclaimed. -/
example : shared.free = 126 ∧ (gc shared 200 >>= fun t => ok t.free) = ok 125 := by decide +kernel

/-! ### C03 -/

/-- C03: a collection stays inside the arena, if the reachable data fit into what is left of it: no access to a cell outside
is made, and afterwards there is at least as much room as before. -/
theorem C03_gc_in_arena_partial (s : St) (fuel : Nat) (hs : Sound s) (hspace : s.free + 2 + liveSize s ≤ s.limit)
    (hsp : 5 ≤ s.sp) (hf : liveSize s + 2 < fuel) :
    ∃ s', gc s fuel = ok s' ∧ s'.free ≤ s.free ∧ s'.limit = s.limit := by
  obtain ⟨s', h1, -, -, h2, -⟩ := C02_gc_compacts_partial s fuel hs hspace hsp hf
  obtain ⟨L, t, h3, h4⟩ := Gc.gc_ok hs hspace hsp hf
  rw [h1] at h3
  cases h3
  exact ⟨s', h1, h2, h4.iso.limit⟩

/-- In particular it does so in every state that allocation can reach without stopping the program, if the extra part of the
arena (`MES_JAM`) is as large as the arena (`MES_ARENA`). -/
theorem C03_gc_in_arena_jam_partial (s : St) (fuel : Nat) (hs : Sound s) (hlimit : s.limit = 1 + s.arena + s.jam)
    (hjam : s.arena + 2 ≤ s.jam) (halloc : s.free - g_cells ≤ s.arena) (hsp : 5 ≤ s.sp) (hf : s.free < fuel) :
    ∃ s', gc s fuel = ok s' ∧ s'.free ≤ s.free ∧ s'.limit = s.limit :=
  C03_gc_in_arena_partial s fuel hs (Roomy.space hs (by simp only [Roomy, g_cells] at *; omega)) hsp
    (by have := Gc.liveSize_le hs; omega)

example : Sound { shared with jam := 1002, limit := 2003 } := Gc.sound_of_check (l := sharedObjects) (by decide +kernel)

/-- What runs between two steps of the evaluator is `gc_check`.  It changes nothing that can be seen, and afterwards either
more than `GC_SAFETY` cells can still be allocated or nothing but reachable data is left. -/
theorem C03_gc_check_partial (s : St) (fuel : Nat) (hs : Sound s) (hspace : s.free + 2 + liveSize s ≤ s.limit)
    (hsp : 5 ≤ s.sp) (hf : liveSize s + 2 < fuel) :
    ∃ s', gcCheck s fuel = ok s' ∧ SameGraph s s' ∧ Sound s' ∧
      (s'.free - g_cells + s.safety < s.arena ∨ s'.free = c_nil + liveSize s) := by
  unfold gcCheck
  by_cases h : s.arena ≤ s.free - g_cells + s.safety
  · rw [if_pos h]
    obtain ⟨s', h1, h2, -⟩ := C02_gc_compacts_partial s fuel hs hspace hsp hf
    obtain ⟨t, h3, h4, h5⟩ := C01_gc_invisible_partial s fuel hs hspace hsp hf
    rw [h1] at h3
    cases h3
    exact ⟨s', h1, h4, h5, .inr h2⟩
  · rw [if_neg h]
    exact ⟨s, rfl, ⟨fun _ _ => rfl, fun _ _ _ _ => Iff.rfl⟩, hs, .inl (by omega)⟩

/-- In the example `gc_check` does nothing while there is room, and collects when there is not. -/
example : (gcCheck shared 200 >>= fun t => ok t.free) = ok 126 ∧
    (gcCheck { shared with safety := 900 } 200 >>= fun t => ok t.free) = ok 125 := by decide +kernel

/-- C03 for every arena: `MES_JAM` is a tenth of `MES_ARENA`, unless the user says otherwise. -/
def C03_gc_in_arena_full : Prop :=
  ∀ (s : St) (fuel : Nat), Sound s → s.limit = 1 + s.arena + s.jam → s.jam = s.arena / 10 → s.free - g_cells ≤ s.arena →
    5 ≤ s.sp → s.free < fuel → gc s fuel ≠ ub

/-- That is false: there is no check that the reachable data fit, and the collector writes beyond the end of the block of
cells, which is where the stack is. -/
theorem C03_gc_in_arena_false : ¬ C03_gc_in_arena_full := by
  intro h
  refine h { heapN 120 12 [num 1] with r1 := 116 } 200
    (Gc.sound_of_check (l := (List.range 113).map (fun i : Nat => 3 + (i : Int)) ++ [116]) (by decide +kernel))
    (by decide) (by decide) (by decide) (by decide) (by decide) ?_
  have : (gc { heapN 120 12 [num 1] with r1 := 116 } 200 >>= fun t => ok t.free) = ub := by decide +kernel
  revert this
  cases gc { heapN 120 12 [num 1] with r1 := 116 } 200 <;> intro h <;> first | rfl | cases h

end Mes.Props
