import Verif.Proof.Process
import Verif.Props.Exec
/- Properties C75, C76 and C77: the arguments of a new program, the functions called at the end, and temporary names. -/
namespace Mes.C
open Res Spec

/-- `execl (file, arg0, ..., argn, 0)` runs the file with the arguments `arg0` to `argn`.  `allowed` restricts the name and the arguments. -/
def ExeclCorrect (allowed : List Byte → List (List Byte) → Prop) : Prop :=
  ∀ (m : Mem) (file arg : Nat) (f s : List Byte) (ps rest : List Nat) (ss : List (List Byte)), CStr m file f → ArgTexts m (arg :: ps) (s :: ss) →
    allowed f (s :: ss) → execl m file arg (ps ++ 0 :: rest) = ok (f, s :: ss)

/-- The full property. -/
def C75_full : Prop := ExeclCorrect fun _ _ => True

/-- A registered function is called at the end, the last one first, also if it was registered meanwhile; `atexit` gives 0. -/
def C76_full : Prop :=
  ∀ (adds : Nat → List Nat) (fs calls : List Nat) (code : Int), (∀ f ∈ fs, f ≠ 0) → EndCalls adds fs calls → exit (registered fs) code = (calls, code)

def C76_result_full : Prop := ∀ g f, f ≠ 0 → (atexit g f).2 = some 0

/-- `mktemp` replaces the last six characters of the template so that no file has the name, if that is possible. -/
def C77_full : Prop :=
  ∀ (taken : List Byte → Prop) (m : Mem) (a : Nat) (s t : List Byte), t.length = 6 → CStr m a (s ++ t) → (∃ l, SixLetters l ∧ ¬ taken (s ++ l)) →
    ∃ l m', SixLetters l ∧ ¬ taken (s ++ l) ∧ mktemp m a = ok (m', a) ∧ CStr m' a (s ++ l)

/-- A template that is too short is left as it is. -/
def C77_short_full : Prop := ∀ (m : Mem) (a : Nat) (s : List Byte), CStr m a s → s.length < 6 → mktemp m a = ok (m, a)

end Mes.C

namespace Mes.Props
open Mes.C Res Spec

/-- Missing for the full property: the first argument is the name of the file, and there are at most 999 arguments. -/
theorem C75_execl_partial : ExeclCorrect fun f ss => ss.head? = some f ∧ ss.length ≤ 999 := by
  intro m file arg f s ps rest ss hf ha ⟨h1, h2⟩
  cases ha with
  | cons hp hs hr =>
    have : s = f := by simpa using h1
    subst this
    have e : ∀ {ps ss}, ArgTexts m ps ss → ps.length = ss.length := fun h => by induction h with
      | nil => rfl
      | cons _ _ _ ih => simp [ih]
    exact vexec_ok rest hf hr (by have := e hr; simp at h2; omega)

/-- The first argument is not used: the program always gets the name of its file instead. -/
theorem C75_first (m : Mem) (file arg : Nat) (f : List Byte) (ps rest : List Nat) (ss : List (List Byte)) (hf : CStr m file f) (h : ArgTexts m ps ss)
    (hl : ps.length ≤ 998) : execl m file arg (ps ++ 0 :: rest) = ok (f, f :: ss) := vexec_ok rest hf h hl

/-- With 1000 arguments or more `execl` writes beyond its array. -/
theorem C75_many (m : Mem) (file arg : Nat) (ps rest : List Nat) (h : ∀ p ∈ ps, p ≠ 0) (hl : 999 ≤ ps.length) : execl m file arg (ps ++ rest) = ub := by
  unfold execl vexec
  rw [vexecLoop_many rest ps [file] h (by simp; omega)]
  rfl

/-- `execl (file, 0)`, and any other call in which no null pointer follows the named argument, reads arguments that were not passed. -/
theorem C75_unended (m : Mem) (file arg : Nat) (ps : List Nat) (h : ∀ p ∈ ps, p ≠ 0) : execl m file arg ps = ub := by
  unfold execl vexec
  rw [vexecLoop_unended ps [file] h]
  rfl

/-- "/b" at 1, "b" at 4 -/
theorem C75_execl_false : ¬ C75_full := by
  intro h
  have := h [0, 47, 98, 0, 98, 0] 1 4 [47, 98] [98] [] [] [] (by decide) (.cons (by decide) (by decide) .nil) trivial
  rw [C75_first [0, 47, 98, 0, 98, 0] 1 4 [47, 98] [] [] [] (by decide) .nil (by decide)] at this
  revert this
  decide

/-- `execlp` with a slash in the name is `execl`. -/
theorem C75_execlp_slash (access : List Byte → Bool) (m : Mem) (w : Words) (buf pathLit slash file arg : Nat) (f : List Byte) (ps rest : List Nat)
    (ss : List (List Byte)) (hf : CStr m file f) (hs : 47 ∈ f) (h : ArgTexts m ps ss) (hl : ps.length ≤ 998) :
    execlp access w buf pathLit slash m file arg (ps ++ 0 :: rest) = ok (some (f, f :: ss)) := by
  have : f.findIdx? (fun b => sc b = 47) ≠ none := by
    rw [ne_eq, List.findIdx?_eq_none_iff]
    intro g
    have := g 47 hs
    revert this
    decide
  obtain ⟨i, hi⟩ := Option.ne_none_iff_exists'.1 this
  unfold execlp
  rw [strchr_ne hf 47 (by decide), hi, Option.map_some]
  simp only [ok_bind, vexec_ok rest hf h hl]

/-- `execlp` finds the program in the directories of PATH, and gives it the name that was found and the arguments that follow the first.  Missing for
the full property: as for C70, and that the first argument is used. -/
theorem C75_execlp_partial (access : List Byte → Bool) (m : Mem) (w : Words) (es : List (List Byte)) (buf pathLit slash file arg : Nat)
    (ds : List (List Byte)) (f s : List Byte) (ps rest : List Nat) (ss : List (List Byte)) (h : PathProcess m w es buf pathLit slash file f) (hf : 47 ∉ f)
    (hd : ∀ d ∈ ds, DirName d ∧ d ≠ [] ∧ d.length + 1 + f.length < 256) (hv : envValue [80, 65, 84, 72] es = some (pathText ds))
    (hs : firstProgram access ds f = some s) (ha : ArgTexts m ps ss) (hb : ∀ p s, (p, s) ∈ ps.zip ss → Disjoint buf 256 p (s.length + 1))
    (hl : ps.length ≤ 998) : execlp access w buf pathLit slash m file arg (ps ++ 0 :: rest) = ok (some (s, s :: ss)) := by
  obtain ⟨m', e, c, so⟩ := C70_found_partial access m w es buf pathLit slash file ds f s h hd hv hs
  have ha' : ArgTexts m' ps ss := by
    clear hl
    induction ha with
    | nil => exact .nil
    | cons hp hs _ ih => exact .cons hp (so.cstr hs (hb _ _ (by simp))) (ih fun p s hm => hb p s (by simp [hm]))
  unfold execlp
  rw [strchr_ne h.file_text 47 (by decide), notSlash hf, Option.map_none]
  simp only [ok_bind, e, vexec_ok rest c ha' hl]

/-- `execlp ("x", "x", "x", 0)` with "/b/x" in PATH: the program gets "/b/x" as its first argument. -/
example : execlp (fun s => s = [47, 98, 47, 120]) [1, 0] 21 12 17 (pathMem [80, 65, 84, 72, 61, 47, 97, 58, 47, 98, 0]) 19 19 [19, 0] =
    ok (some ([47, 98, 47, 120], [[47, 98, 47, 120], [120]])) :=
  C75_execlp_partial _ _ _ _ _ _ _ _ _ [[47, 97], [47, 98]] _ _ [19] [] [[120]] pathMem_one (by decide +kernel) (by unfold DirName; decide) (by decide +kernel) (by decide +kernel)
    (.cons (by decide) (by decide +kernel) .nil) (by simp [Disjoint]) (by decide)

example : execl [0, 98, 0, 99, 0] 1 1 [3, 0] = ok ([98], [[98], [99]]) :=
  C75_execl_partial [0, 98, 0, 99, 0] 1 1 [98] [98] [3] [] [[99]] (by decide) (.cons (by decide) (by decide) (.cons (by decide) (by decide) .nil)) ⟨rfl, by decide⟩

/-- The function that was registered last is called, and no other. -/
theorem C76_last (fs : List Nat) (f : Nat) (code : Int) (h : f ≠ 0) : exit (registered (fs ++ [f])) code = ([f], code) := by
  rw [registered_snoc, exit, if_pos h]

theorem ends_nil {adds : Nat → List Nat} {fs calls : List Nat} (h : EndCalls adds fs calls) (e : fs = []) : calls = [] := by
  cases h with
  | done => rfl
  | call _ => simp at e

/-- Missing for the full property: at most one function is registered, and it registers none. -/
theorem C76_partial (adds : Nat → List Nat) (fs calls : List Nat) (code : Int) (h0 : ∀ f ∈ fs, f ≠ 0) (hl : fs.length ≤ 1) (ha : ∀ f ∈ fs, adds f = [])
    (h : EndCalls adds fs calls) : exit (registered fs) code = (calls, code) := by
  cases h with
  | done => rfl
  | @call fs f calls h =>
    have e : fs = [] := by
      cases fs with
      | nil => rfl
      | cons _ _ => simp at hl
    subst e
    rw [ha f (by simp)] at h
    rw [C76_last [] f code (h0 f (by simp)), ends_nil h rfl]

example : exit (registered [7]) 3 = ([7], 3) := C76_partial (fun _ => []) [7] [7] 3 (by simp) (by simp) (by simp) (.call (fs := []) .done)

/-- Of two functions only one is called. -/
theorem C76_false : ¬ C76_full := by
  intro h
  have := h (fun _ => []) [1, 2] [2, 1] 0 (by simp) (.call (fs := [1]) (.call (fs := []) .done))
  revert this
  decide

/-- A function that is registered while the last one runs is not called. -/
theorem C76_during_false : ¬ ∀ (adds : Nat → List Nat) (f : Nat) (calls : List Nat) (code : Int), f ≠ 0 → EndCalls adds [f] calls →
    exit (registered [f]) code = (calls, code) := by
  intro h
  have := h (fun f => if f = 1 then [2] else []) 1 [1, 2] 0 (by decide) (.call (fs := []) (.call (fs := []) .done))
  revert this
  decide

theorem C76_result_false : ¬ C76_result_full := fun h => nomatch h 0 1 (by decide)

/-- The six characters before the end of the template are replaced by six letters; they depend on its address only.  Missing for the full property:
that no file has the name. -/
theorem C77_partial (m : Mem) (a : Nat) (s t : List Byte) (ht : t.length = 6) (h : CStr m a (s ++ t)) :
    ∃ l, SixLetters l ∧ mktemp m a = ok (patch m (a + s.length) l, a) ∧ CStr (patch m (a + s.length) l) a (s ++ l) :=
  ⟨sixLetters a, sixLetters_ok a, mktemp_ok h (by simp; omega), cstr_patch h ht.symm fun b hb e => by
    have := ((sixLetters_ok a).2 b hb).1
    subst e
    exact absurd this (by decide)⟩

/-- Two calls with templates at the same address give the same letters. -/
theorem C77_same (m m' : Mem) (a : Nat) (s s' t t' : List Byte) (ht : t.length = 6) (ht' : t'.length = 6) (h : CStr m a (s ++ t)) (h' : CStr m' a (s' ++ t')) :
    ∃ l, SixLetters l ∧ mktemp m a = ok (patch m (a + s.length) l, a) ∧ mktemp m' a = ok (patch m' (a + s'.length) l, a) :=
  ⟨sixLetters a, sixLetters_ok a, mktemp_ok h (by simp; omega), mktemp_ok h' (by simp; omega)⟩

/-- A template of less than six characters: the characters before it are overwritten. -/
theorem C77_before (m : Mem) (a p : Nat) (s : List Byte) (h : CStr m a s) (hp : p + 6 = a + s.length) :
    ∃ l, SixLetters l ∧ mktemp m a = ok (patch m p l, a) := ⟨sixLetters a, sixLetters_ok a, mktemp_ok h hp⟩

/-- "XXXXXX" at 0 becomes "aaaaaa", also if there is such a file. -/
theorem C77_false : ¬ C77_full := by
  intro h
  obtain ⟨l, m', h1, h2, h3, h4⟩ := h (fun s => s = [97, 97, 97, 97, 97, 97]) [88, 88, 88, 88, 88, 88, 0] 0 [] [88, 88, 88, 88, 88, 88] rfl (by decide)
    ⟨[98, 97, 97, 97, 97, 97], by unfold SixLetters; decide, by decide⟩
  have e : mktemp [88, 88, 88, 88, 88, 88, 0] 0 = ok ([97, 97, 97, 97, 97, 97, 0], 0) := by decide +kernel
  rw [e] at h3
  cases h3
  refine h2 ?_
  exact h4.unique (by decide)

/-- The empty template at 6. -/
theorem C77_short_false : ¬ C77_short_full := by
  intro h
  have := h [1, 2, 3, 4, 5, 6, 0] 6 [] (by decide) (by decide)
  have e : mktemp [1, 2, 3, 4, 5, 6, 0] 6 = ok ([97, 97, 97, 97, 97, 97, 0], 6) := by decide +kernel
  rw [e] at this
  cases this

/-- "t/XXXXXX" -/
example : ∃ l, SixLetters l ∧ mktemp [0, 116, 47, 88, 88, 88, 88, 88, 88, 0] 1 = ok (patch [0, 116, 47, 88, 88, 88, 88, 88, 88, 0] 3 l, 1) ∧
    CStr (patch [0, 116, 47, 88, 88, 88, 88, 88, 88, 0] 3 l) 1 ([116, 47] ++ l) := C77_partial _ 1 [116, 47] [88, 88, 88, 88, 88, 88] rfl (by decide)

end Mes.Props
