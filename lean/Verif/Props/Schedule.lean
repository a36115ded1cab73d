import Verif.Proof.Schedule
import Verif.Props.Gc
/-
Property C05: the moment of a garbage collection (/repo/src/gc.c:595-692) does not influence a result.
-/
namespace Mes.Props
open Res Spec

/-- C05: for every program made of list, vector and arithmetic primitives, of any length and from any sound memory: if it ends
without collections, then with a collection before any of its operations it prints the same and ends with the same data.  (The
primitives are those of `Spec.Prim`; see `C05_is_p_false` for one where this fails.  The hypotheses on `s.arena` say that the
arena leaves room for a collection, see C03.) -/
theorem C05_schedule_partial (fuel : Nat) (sched : List Bool) (ops : List Op) (s t : St) (o : List Shown) (hs : Sound s)
    (hroom : s.free - g_cells ≤ s.arena) (hspace : 2 * (s.arena + 2) ≤ s.limit + 1) (hsp : 5 ≤ s.sp)
    (h : run fuel [] ops s = (o, ok t)) :
    ∃ t', run fuel sched ops s = (o, ok t') ∧ SameGraph t t' ∧ Sound t' := by
  have hrel := Gc.Rel.refl hs (by simp only [g_cells] at hroom; omega) ⟨hspace, hsp⟩
  rcases Gc.run_sim fuel ops sched hrel rfl (by rw [h]; exact .inr ⟨t, rfl⟩) with ⟨hn, -⟩ | ⟨m', e1, -, e2⟩
  · exact absurd trivial hn
  · obtain ⟨P, f, t', rfl, h'⟩ := e2 t (by rw [h])
    rw [h] at e1
    exact ⟨t', e1, Gc.sameGraph (h'.iso_reach trivial), h'.sound_reach'⟩

/-- The same for programs that stop with an error: they print the same before, and the error is the same. -/
theorem C05_schedule_error_partial (fuel : Nat) (sched : List Bool) (ops : List Op) (s : St) (o : List Shown) (k : Key) (hs : Sound s)
    (hroom : s.free - g_cells ≤ s.arena) (hspace : 2 * (s.arena + 2) ≤ s.limit + 1) (hsp : 5 ≤ s.sp)
    (h : run fuel [] ops s = (o, err k)) : run fuel sched ops s = (o, err k) := by
  have hrel := Gc.Rel.refl hs (by simp only [g_cells] at hroom; omega) ⟨hspace, hsp⟩
  rcases Gc.run_sim fuel ops sched hrel rfl (by rw [h]; exact .inl ⟨k, rfl⟩) with ⟨hn, -⟩ | ⟨m', e1, e2, -⟩
  · exact absurd trivial hn
  · rw [h] at e1
    rw [e1, e2 k (by rw [h])]

/-- C05 in another arena: let the program end, or stop with an error, in a memory that is large enough.  In the same memory with
an arena of any other size, with collections before any of its operations, it prints the same and ends the same way, or it stops
for lack of memory or stack having printed a part of the same; it never goes on with other values. -/
theorem C05_arena_partial (fuel : Nat) (sched : List Bool) (ops : List Op) (s : St) (a l : Int) (hs : Sound s)
    (hroom : s.free - g_cells ≤ a) (hspace : 2 * (a + 2) ≤ l + 1) :
    (∀ t, (run fuel [] ops s).2 = ok t →
      (∃ o o', run fuel sched ops { s with arena := a, limit := l } = (o, abort) ∧ (run fuel [] ops s).1 = o ++ o') ∨
      ∃ t' f, run fuel sched ops { s with arena := a, limit := l } = ((run fuel [] ops s).1, ok t') ∧ Sound t' ∧
        Iso f { t with arena := t'.arena, safety := t'.safety, limit := t'.limit } t') ∧
    (∀ k, (run fuel [] ops s).2 = err k →
      (∃ o o', run fuel sched ops { s with arena := a, limit := l } = (o, abort) ∧ (run fuel [] ops s).1 = o ++ o') ∨
      run fuel sched ops { s with arena := a, limit := l } = ((run fuel [] ops s).1, err k)) := by
  have hrel := Gc.Rel.resized (a := a) (l := l) hs (by simp only [g_cells] at hroom; omega) hspace
  refine ⟨fun t ht => ?_, fun k hk => ?_⟩
  · rcases Gc.run_sim fuel ops sched hrel rfl (by rw [ht]; exact .inr ⟨t, rfl⟩) with ⟨-, h⟩ | ⟨m', e1, -, e2⟩
    · exact .inl h
    · obtain ⟨P, f, t', rfl, h'⟩ := e2 t ht
      refine .inr ⟨t', f, e1, h'.sound_reach', ?_⟩
      have hi : Iso f (Gc.level 0 t t') t' := IsoOn.mono h'.iso.level fun b hb => h'.closed.reach (h'.iso.reach_level.1 hb)
      have e3 := h'.iso.sp
      have e4 := h'.iso.stackSize
      simp only [Int.add_zero] at e3 e4
      simpa [Gc.level, ← e3, ← e4] using hi
  · rcases Gc.run_sim fuel ops sched hrel rfl (by rw [hk]; exact .inl ⟨k, rfl⟩) with ⟨-, h⟩ | ⟨m', e1, e2, -⟩
    · exact .inl h
    · rw [e2 k hk] at e1
      exact .inr e1

/-- Primitives preserve soundness, so that the theorems on collections apply to everything these programs can build. -/
theorem C05_sound_partial (fuel : Nat) (ops : List Op) (s t : St) (o : List Shown) (hs : Sound s)
    (hroom : s.free - g_cells ≤ s.arena) (hspace : 2 * (s.arena + 2) ≤ s.limit + 1) (hsp : 5 ≤ s.sp)
    (h : run fuel [] ops s = (o, ok t)) : Sound t ∧ t.free - g_cells ≤ t.arena := by
  have hrel := Gc.Rel.refl hs (by simp only [g_cells] at hroom; omega) ⟨hspace, hsp⟩
  rcases Gc.run_sim fuel ops [] hrel rfl (by rw [h]; exact .inr ⟨t, rfl⟩) with ⟨hn, -⟩ | ⟨m', -, -, e2⟩
  · exact absurd trivial hn
  · obtain ⟨P, f, t', -, h'⟩ := e2 t (by rw [h])
    exact ⟨h'.sound_reach, by have := h'.tight trivial; simp only [g_cells]; omega⟩

/-- A program: `(let* ((a 7) (v (make-vector 2 a)) (p (cons a v))) (vector-set! v 1 p) (set-cdr! p p) … )`, where `p` is then
circular. -/
def sampleProgram : List Op :=
  [.set 0 (.number 7), .set 1 (.makeVector 2 0), .set 2 (.cons 0 1), .set 3 (.vectorSet 1 1 2), .set 3 (.setCdr 2 2),
    .print 1, .set 3 (.vectorRef 1 1), .set 3 (.eq 2 3), .print 3, .set 3 (.plus [0, 0, 0]), .print 3]

def roomyHeap : St := { heapN 300 400 [] with sp := 40, stack := fun _ => c_nil }

example : Sound roomyHeap ∧ roomyHeap.free - g_cells ≤ roomyHeap.arena ∧ 2 * (roomyHeap.arena + 2) ≤ roomyHeap.limit + 1 ∧
    5 ≤ roomyHeap.sp :=
  ⟨Gc.sound_of_check (l := (List.range 113).map (fun i : Nat => 3 + (i : Int))) (by decide +kernel), by decide, by decide, by decide⟩

/-- It ends, with `eq?` true and the sum 21. -/
example : ((run 10 [] sampleProgram roomyHeap).2 >>= fun t => ok (t.cell (t.stack 43)).cdr) = ok 21 ∧
    ((run 10 [] sampleProgram roomyHeap).1.map (fun o => (o []).map (·.1.1))) = [some .vector, some .special, some .number] := by
  decide +kernel

/-- In an arena of 123 cells the program stops for lack of memory, unless there is a collection. -/
example : (run 10 [] sampleProgram { roomyHeap with arena := 123, limit := 400 }).2 = abort := by
  have : ((run 10 [] sampleProgram { roomyHeap with arena := 123, limit := 400 }).2 >>= fun _ => ok ()) = abort := by decide +kernel
  revert this
  cases (run 10 [] sampleProgram { roomyHeap with arena := 123, limit := 400 }).2 <;> intro h <;> first | rfl | cases h

example : ((run 10 [false, false, false, false, true] sampleProgram { roomyHeap with arena := 123, limit := 400 }).2 >>= fun t =>
    ok (t.cell (t.stack 43)).cdr) = ok 21 := by
  decide +kernel

/-- C05 for `=` applied to the values of two variables. -/
def C05_is_p_full : Prop :=
  ∀ (s s' : St) (x y : Nat) (fuel : Nat), Sound s → 2 * (s.arena + 2) ≤ s.limit + 1 → s.free - g_cells ≤ s.arena → 5 ≤ s.sp →
    gc s (s.arena + 3).toNat = ok s' → ∀ r, (withArgs s [x, y] (fun s l => Spec.pure s (isP s fuel l)) >>= fun p => ok p.1) = ok r →
    (withArgs s' [x, y] (fun s l => Spec.pure s (isP s fuel l)) >>= fun p => ok p.1) = ok r

/-- The number 119, garbage, and the pair `(() . "")`, the string being at address 119. -/
def addressHeap : St :=
  { heapN 300 400 [num 119, num 0, num 0, { tag := .string, car := 0, cdr := c_nil }, pair c_nil 119] with
    sp := 48, stack := fun i => if i = 48 then 116 else 120 }

/-- That is false: `=` does not check the type of its second argument, and compares the number with the address in the pair,
which the collection changes. -/
theorem C05_is_p_false : ¬ C05_is_p_full := by
  intro h
  have hs : Sound addressHeap :=
    Gc.sound_of_check (l := (List.range 113).map (fun i : Nat => 3 + (i : Int)) ++ [116, 119, 120]) (by decide +kernel)
  have e1 : (withArgs addressHeap [0, 1] (fun s l => Spec.pure s (isP s 5 l)) >>= fun p => ok p.1) = ok c_t := by decide +kernel
  have e2 : (gc addressHeap 303 >>= fun t => withArgs t [0, 1] (fun s l => Spec.pure s (isP s 5 l)) >>= fun p => ok p.1) = ok c_f := by
    decide +kernel
  cases hg : gc addressHeap 303 with
  | ok s' =>
    rw [hg] at e2
    have := h addressHeap s' 0 1 5 hs (by decide) (by decide) (by decide) (by rw [← hg]; rfl) c_t e1
    simp only [ok_bind] at e2
    rw [e2] at this
    cases this
  | _ => rw [hg] at e2; cases e2

end Mes.Props
