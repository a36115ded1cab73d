import Verif.Proof.Exec
/- Property C70: the search for programs, /repo/lib/mes/search-path.c and /repo/lib/posix/execvp.c. -/
namespace Mes.C
open Res Spec

/-- A process with an environment below the buffer, the texts "PATH" and "/", and the name of a program. -/
structure PathProcess (m : Mem) (w : Words) (es : List (List Byte)) (buf pathLit slash file : Nat) (f : List Byte) : Prop where
  environ : Environ m w es buf
  path_text : CStr m pathLit [80, 65, 84, 72]
  slash_text : CStr m slash [47]
  file_text : CStr m file f
  buffer : buf + 256 ≤ m.length
  slash_apart : Disjoint buf 256 slash 2
  file_apart : Disjoint buf 256 file (f.length + 1)

/-- A name without a slash is searched in the directories of PATH: `execve` gets the first executable one, and if there is none the result is
`ENOENT`.  `directories` restricts the directories and the name. -/
def ExecvpCorrect (directories : List (List Byte) → List Byte → Prop) : Prop :=
  ∀ (access : List Byte → Bool) (m : Mem) (w : Words) (es : List (List Byte)) (buf pathLit slash file : Nat) (ds : List (List Byte)) (f : List Byte),
    PathProcess m w es buf pathLit slash file f → 47 ∉ f → ds ≠ [] → (∀ d ∈ ds, DirName d) → envValue [80, 65, 84, 72] es = some (pathText ds) →
    directories ds f → execvp access w buf pathLit slash m file = ok (firstProgram access ds f)

/-- The full property. -/
def C70_full : Prop := ExecvpCorrect fun _ _ => True

end Mes.C

namespace Mes.Props
open Mes.C Res Spec

/-- The memory of a process with one entry at 1, the text "PATH", the text "/", the name "x" and the buffer behind them. -/
def pathMem (entries : List Byte) : Mem := 0 :: entries ++ [80, 65, 84, 72, 0, 47, 0, 120, 0] ++ List.replicate 256 0

theorem notSlash {f : List Byte} (h : 47 ∉ f) : f.findIdx? (fun b => sc b = 47) = none := by
  rw [List.findIdx?_eq_none_iff]
  intro b hb
  have : sc b ≠ sc 47 := fun e => h (sc_inj e ▸ hb)
  exact decide_eq_false this

/-- `search_path` gives the name in its buffer if the program is in a directory of PATH, and changes nothing but the buffer.  Missing for the full
property: the directories have names, and the names fit in the buffer. -/
theorem C70_found_partial (access : List Byte → Bool) (m : Mem) (w : Words) (es : List (List Byte)) (buf pathLit slash file : Nat)
    (ds : List (List Byte)) (f s : List Byte) (h : PathProcess m w es buf pathLit slash file f)
    (hd : ∀ d ∈ ds, DirName d ∧ d ≠ [] ∧ d.length + 1 + f.length < 256) (hv : envValue [80, 65, 84, 72] es = some (pathText ds))
    (hs : firstProgram access ds f = some s) :
    ∃ m', searchPath access w buf pathLit slash m file = ok (some buf, m') ∧ CStr m' buf s ∧ SameOutside buf 256 m m' := by
  obtain ⟨q, e1, c1, l1⟩ := getenv_place h.environ h.path_text (by decide) hv
  have hne : ds ≠ [] := by
    rintro rfl
    cases hs
  obtain ⟨m', fuel', s', -, g⟩ := search_all (access := access) h.slash_apart h.file_apart ds m q (m.length + 1) h.buffer hne hd c1 h.slash_text h.file_text
    (by unfold Disjoint; omega) (by have := c1.lt; omega)
  rw [hs] at g
  refine ⟨m', ?_, g.1, s'⟩
  unfold searchPath
  rw [e1, ok_bind]
  exact g.2

/-- Then `execvp` runs it.  Missing for the full property: as above. -/
theorem C70_execvp_partial (access : List Byte → Bool) (m : Mem) (w : Words) (es : List (List Byte)) (buf pathLit slash file : Nat)
    (ds : List (List Byte)) (f s : List Byte) (h : PathProcess m w es buf pathLit slash file f) (hf : 47 ∉ f)
    (hd : ∀ d ∈ ds, DirName d ∧ d ≠ [] ∧ d.length + 1 + f.length < 256) (hv : envValue [80, 65, 84, 72] es = some (pathText ds))
    (hs : firstProgram access ds f = some s) : execvp access w buf pathLit slash m file = ok (some s) := by
  obtain ⟨m', e, c, -⟩ := C70_found_partial access m w es buf pathLit slash file ds f s h hd hv hs
  have hl : s.length < m'.length + 1 := by have := c.lt; omega
  unfold execvp
  rw [strchr_ne h.file_text 47 (by decide), notSlash hf, Option.map_none]
  simp only [ok_bind, e, cText_ok _ _ _ c hl]

/-- A name with a slash is used as it is. -/
theorem C70_slash (access : List Byte → Bool) (m : Mem) (w : Words) (buf pathLit slash file : Nat) (f : List Byte) (h : CStr m file f) (hf : 47 ∈ f) :
    execvp access w buf pathLit slash m file = ok (some f) := by
  have : f.findIdx? (fun b => sc b = 47) ≠ none := by
    rw [ne_eq, List.findIdx?_eq_none_iff]
    intro g
    have := g 47 hf
    revert this
    decide
  obtain ⟨i, hi⟩ := Option.ne_none_iff_exists'.1 this
  have hl : f.length < m.length + 1 := by have := h.lt; omega
  unfold execvp
  rw [strchr_ne h 47 (by decide), hi, Option.map_some]
  simp only [ok_bind, cText_ok _ _ _ h hl]

/-- Without the variable PATH the null pointer is read. -/
theorem C70_unset (access : List Byte → Bool) (m : Mem) (w : Words) (es : List (List Byte)) (buf pathLit slash file : Nat) (f : List Byte)
    (h : PathProcess m w es buf pathLit slash file f) (hf : 47 ∉ f) (hv : envValue [80, 65, 84, 72] es = none) :
    execvp access w buf pathLit slash m file = ub := by
  have e := getenv_ok h.environ h.path_text (by decide)
  rw [hv] at e
  unfold execvp
  rw [strchr_ne h.file_text 47 (by decide), notSlash hf, Option.map_none]
  simp only [ok_bind, searchPath, e]
  rfl

/-- If the program is in no directory of PATH, the search goes on in the text that follows PATH in the memory, whatever it is: the directories `ds'`
that it seems to consist of are searched too. -/
theorem C70_runs_on (access : List Byte → Bool) (m : Mem) (w : Words) (es : List (List Byte)) (buf pathLit slash file q : Nat)
    (ds ds' : List (List Byte)) (f s : List Byte) (h : PathProcess m w es buf pathLit slash file f) (hf : 47 ∉ f) (hne : ds ≠ [])
    (hd : ∀ d ∈ ds ++ ds', DirName d ∧ d ≠ [] ∧ d.length + 1 + f.length < 256) (hq : getenv m w pathLit = ok (some q)) (hv : CStr m q (pathText ds))
    (hr : CStr m (q + (pathText ds).length + 1) (pathText ds')) (hb : q + (pathText ds).length + 1 + (pathText ds').length < buf)
    (hn : firstProgram access ds f = none) (hs : firstProgram access ds' f = some s) : execvp access w buf pathLit slash m file = ok (some s) := by
  obtain ⟨m1, fuel1, s1, l1, g1⟩ := search_all (access := access) h.slash_apart h.file_apart ds m q (m.length + 1) h.buffer hne
    (fun d hx => hd d (List.mem_append_left _ hx)) hv h.slash_text h.file_text (by unfold Disjoint; omega) (by have := hv.lt; omega)
  rw [hn] at g1
  have hne' : ds' ≠ [] := by
    rintro rfl
    cases hs
  have hlt := h.buffer
  obtain ⟨m2, fuel2, s2, l2, g2⟩ := search_all (access := access) h.slash_apart h.file_apart ds' m1 (q + (pathText ds).length + 1) fuel1 (by rw [s1.1]; exact h.buffer) hne'
    (fun d hx => hd d (List.mem_append_right _ hx)) (s1.cstr hr (by unfold Disjoint; omega)) (s1.cstr h.slash_text h.slash_apart) (s1.cstr h.file_text h.file_apart)
    (by unfold Disjoint; omega) (by omega)
  rw [hs] at g2
  have hl : s.length < m2.length + 1 := by have := g2.1.lt; omega
  unfold execvp
  rw [strchr_ne h.file_text 47 (by decide), notSlash hf, Option.map_none]
  simp only [ok_bind, searchPath, hq, g1, g2.2, cText_ok _ _ _ g2.1 hl]

/-- If an empty text follows PATH, a program that is in no directory is reported as missing.  Missing for the full property: anything else that may
follow. -/
theorem C70_missing_partial (access : List Byte → Bool) (m : Mem) (w : Words) (es : List (List Byte)) (buf pathLit slash file q : Nat)
    (ds : List (List Byte)) (f : List Byte) (h : PathProcess m w es buf pathLit slash file f) (hf : 47 ∉ f) (hne : ds ≠ [])
    (hd : ∀ d ∈ ds, DirName d ∧ d ≠ [] ∧ d.length + 1 + f.length < 256) (hq : getenv m w pathLit = ok (some q)) (hv : CStr m q (pathText ds))
    (hr : CStr m (q + (pathText ds).length + 1) []) (hb : q + (pathText ds).length + 1 < buf)
    (hn : firstProgram access ds f = none) : execvp access w buf pathLit slash m file = ok none := by
  obtain ⟨m1, fuel1, s1, l1, g1⟩ := search_all (access := access) h.slash_apart h.file_apart ds m q (m.length + 1) h.buffer hne hd hv h.slash_text h.file_text
    (by unfold Disjoint; omega) (by have := hv.lt; omega)
  rw [hn] at g1
  have hlt := h.buffer
  have c := s1.cstr hr (by unfold Disjoint; simp only [List.length_nil]; omega)
  have hl : fuel1 = (fuel1 - 1) + 1 := by omega
  unfold execvp
  rw [strchr_ne h.file_text 47 (by decide), notSlash hf, Option.map_none]
  simp only [ok_bind, searchPath, hq, g1]
  rw [hl, searchLoop]
  simp only [rd_ok c.nil, ok_bind, if_true]

/-- "PATH=/a:/b" -/
theorem pathMem_one : PathProcess (pathMem [80, 65, 84, 72, 61, 47, 97, 58, 47, 98, 0]) [1, 0] [[80, 65, 84, 72, 61, 47, 97, 58, 47, 98]] 21 12 17 19 [120] :=
  ⟨environ_iff.2 ⟨[1], [], rfl, ⟨by decide +kernel, by decide +kernel, by decide +kernel⟩, trivial⟩, by decide +kernel, by decide +kernel, by decide +kernel, by decide +kernel, by unfold Disjoint; decide,
    by unfold Disjoint; decide⟩

/-- "x" is "/b/x" -/
example : execvp (fun s => s = [47, 98, 47, 120]) [1, 0] 21 12 17 (pathMem [80, 65, 84, 72, 61, 47, 97, 58, 47, 98, 0]) 19 = ok (some [47, 98, 47, 120]) :=
  C70_execvp_partial _ _ _ _ _ _ _ _ [[47, 97], [47, 98]] _ _ pathMem_one (by decide +kernel) (by unfold DirName; decide) (by decide +kernel) (by decide +kernel)

/-- The search runs on: with the environment "PATH=/a", "X:/b" the program "/b/x" is run. -/
theorem C70_beyond_false : ¬ ExecvpCorrect fun ds f => ∀ d ∈ ds, d ≠ [] ∧ d.length + 1 + f.length < 256 := by
  intro h
  have := h (fun s => s = [47, 98, 47, 120]) (pathMem [80, 65, 84, 72, 61, 47, 97, 0, 88, 58, 47, 98, 0]) [1, 9, 0] [[80, 65, 84, 72, 61, 47, 97], [88, 58, 47, 98]]
    23 14 19 21 [[47, 97]] [120]
    ⟨environ_iff.2 ⟨[1, 9], [], rfl, ⟨by decide +kernel, by decide +kernel, by decide +kernel⟩, ⟨by decide +kernel, by decide +kernel, by decide +kernel⟩, trivial⟩, by decide +kernel, by decide +kernel, by decide +kernel,
      by decide +kernel, by unfold Disjoint; decide, by unfold Disjoint; decide⟩
    (by decide +kernel) (by decide +kernel) (by unfold DirName; decide) (by decide +kernel) (by decide +kernel)
  revert this
  decide +kernel

/-- An empty name is not the current directory, but the root: with "PATH=:/a" the program "/x" is run. -/
theorem C70_current_false : ¬ ExecvpCorrect fun ds f => ∀ d ∈ ds, d.length + 1 + f.length < 256 := by
  intro h
  have := h (fun s => s = [47, 120] || s = [120]) (pathMem [80, 65, 84, 72, 61, 58, 47, 97, 0]) [1, 0] [[80, 65, 84, 72, 61, 58, 47, 97]]
    19 10 15 17 [[], [47, 97]] [120]
    ⟨environ_iff.2 ⟨[1], [], rfl, ⟨by decide +kernel, by decide +kernel, by decide +kernel⟩, trivial⟩, by decide +kernel, by decide +kernel, by decide +kernel,
      by decide +kernel, by unfold Disjoint; decide, by unfold Disjoint; decide⟩
    (by decide +kernel) (by decide +kernel) (by unfold DirName; decide) (by decide +kernel) (by decide +kernel)
  revert this
  decide +kernel

/-- A long name overflows the buffer. -/
theorem C70_long_false : ¬ ExecvpCorrect fun ds f => ∀ d ∈ ds, d ≠ [] := by
  intro h
  have := h (fun _ => true) (pathMem ([80, 65, 84, 72, 61] ++ List.replicate 256 97 ++ [0])) [1, 0] [[80, 65, 84, 72, 61] ++ List.replicate 256 97]
    272 263 268 270 [List.replicate 256 97] [120]
    ⟨environ_iff.2 ⟨[1], [], rfl, ⟨by decide +kernel, by decide +kernel, by decide +kernel⟩, trivial⟩, by decide +kernel, by decide +kernel, by decide +kernel,
      by decide +kernel, by unfold Disjoint; decide, by unfold Disjoint; decide⟩
    (by decide +kernel) (by decide +kernel) (by unfold DirName; decide +kernel) (by decide +kernel) (by decide +kernel)
  revert this
  decide +kernel

theorem C70_false : ¬ C70_full := fun h => C70_long_false fun a m w es b p s f ds n h1 h2 h3 h4 h5 _ => h a m w es b p s f ds n h1 h2 h3 h4 h5 trivial

end Mes.Props
