import Verif.Proof.Environ
/-
Property C48: getenv, setenv and unsetenv (/repo/lib/posix/getenv.c, setenv.c, unsetenv.c).
-/
namespace Mes.Props
open Res Spec C

/-- `setenv` sets the variable, unless it has a value and `overwrite` is 0, and changes no other. -/
def SetenvSpec (overwrite : Int → Prop) : Prop :=
  ∀ s bs w es k v name value o, Good s bs → Environ s.mem w es s.next → VarName k → CStr s.mem name k → CStr s.mem value v →
    name + k.length < s.next → value + v.length < s.next → k.length + v.length < 2 ^ 31 → s.next + (k.length + v.length + 2) + 7 ≤ s.limit →
    es.length + 1 < w.length → overwrite o →
    ∃ s' w' es', setenv s w name value o = ok (s', w', 0) ∧ Environ s'.mem w' es' s'.next ∧
      envValue k es' = (if o = 0 then (envValue k es).or (some v) else some v) ∧ ∀ k', VarName k' → k' ≠ k → envValue k' es' = envValue k' es

/-- `unsetenv` removes the variable and changes no other. -/
def UnsetenvSpec : Prop :=
  ∀ m w es k name b, Environ m w es b → VarName k → CStr m name k → k.length < 2 ^ 31 →
    ∃ w' es', unsetenv m w name = ok w' ∧ Environ m w' es' b ∧ envValue k es' = none ∧ ∀ k', VarName k' → k' ≠ k → envValue k' es' = envValue k' es

/-- C48: the functions implement a map from names to values. -/
def C48_full : Prop := SetenvSpec (fun _ => True) ∧ UnsetenvSpec

/-- A process with the texts "A=1" at 1, "A=2" at 5, "A" at 9, "3" at 11, "B" at 13 and "45678" at 16; the heap starts at 32. -/
def envProc : Proc :=
  { start := 32, limit := 1000, page := 8, top := 32, cur := 0,
    mem := [0, 65, 61, 49, 0, 65, 61, 50, 0, 65, 0, 51, 0, 66, 0, 0, 52, 53, 54, 55, 56, 0, 0, 0, 0, 0, 0, 0, 0, 0, 0, 0] }

theorem envProc_good : Good envProc [] :=
  ⟨⟨by simp, .nil, by simp, by simp⟩, by decide, by decide, by decide, .inl ⟨rfl, rfl⟩⟩

theorem envProc_one : Environ envProc.mem [1, 0, 7, 7] [[65, 61, 49]] envProc.next :=
  environ_iff.2 ⟨[1], [7, 7], rfl, ⟨by decide, by decide, by decide⟩, trivial⟩

theorem envProc_two : Environ envProc.mem [1, 5, 0, 7] [[65, 61, 49], [65, 61, 50]] 32 :=
  environ_iff.2 ⟨[1, 5], [7], rfl, ⟨by decide, by decide, by decide⟩, ⟨by decide, by decide, by decide⟩, trivial⟩

/-- A result of which something can be computed. -/
def okAnd' {α : Type} (r : Res α) (p : α → Bool) : Bool := match r with
  | ok x => p x
  | _ => false

def isUb {α : Type} (r : Res α) : Bool := match r with
  | ub => true
  | _ => false

/-- What the environment says is determined by memory and array. -/
theorem envValue_of_getenv {m : Mem} {w : Words} {es : List (List Byte)} {k : List Byte} {a b : Nat} (h : Environ m w es b) (hk : CStr m a k)
    (hl : k.length < 2 ^ 31) (hn : envValue k es = none) : getenv m w a = ok none := by
  have := getenv_ok h hk (by unfold INT_MAX; omega)
  rwa [hn] at this

/-- C48 does not hold: when two entries of the same name follow each other, as they may in the environment that a process is started
with, unsetenv removes only one of them, because it goes on after the entry that moved down. -/
theorem C48_unsetenv_false : ¬ UnsetenvSpec := by
  intro h
  obtain ⟨w', es', h1, h2, h3, -⟩ := h envProc.mem [1, 5, 0, 7] _ [65] 9 32 envProc_two (by decide) (by decide) (by decide)
  have h4 := envValue_of_getenv h2 (a := 9) (k := [65]) (by decide) (by decide) h3
  have e : unsetenv envProc.mem [1, 5, 0, 7] 9 = ok [5, 0, 0, 7] := by decide +kernel
  rw [e] at h1
  cases h1
  have : getenv envProc.mem [5, 0, 0, 7] 9 ≠ ok none := by decide +kernel
  exact this h4

/-- Nor does it hold for setenv with overwrite 0: the variable gets the new value nevertheless. -/
theorem C48_overwrite_false : ¬ SetenvSpec (fun o => o = 0) := by
  intro h
  obtain ⟨s', w', es', h1, h2, h3, -⟩ := h envProc [] [1, 0, 7, 7] _ [65] [51] 9 11 0 envProc_good envProc_one (by decide) (by decide) (by decide) (by decide) (by decide)
    (by decide) (by decide) (by decide) rfl
  obtain ⟨p, s1, w1, e1, -, e3, -, -, -⟩ := setenv_ok (o := 0) (k := [65]) (v := [51]) (name := 9) (value := 11) envProc_good envProc_one (by decide) (by decide) (by decide) (by decide)
    (by decide) (by decide) (by decide) (by decide) (fun p h1 h2 h3 => by
      show ¬ 8 ∣ p + 4
      omega)
  rw [e1] at h1
  cases h1
  have hk : CStr s'.mem 9 [65] := by
    have : okAnd' (setenv envProc [1, 0, 7, 7] 9 11 0) (fun r => decide (CStr r.1.mem 9 [65])) = true := by decide +kernel
    rw [e1] at this
    exact of_decide_eq_true this
  have g1 := getenv_ok e3 hk (by decide)
  have g2 := getenv_ok h2 hk (by decide)
  rw [setEntry_self] at g1
  rw [h3] at g2
  obtain ⟨q, g1, c1⟩ := g1
  obtain ⟨q', g2, c2⟩ := g2
  rw [g1] at g2
  cases g2
  have r1 := c1.head.1
  have r2 := c2.1 0 (by decide)
  rw [Nat.add_zero, r1] at r2
  revert r2
  decide

/-- And the byte that setenv writes behind the block may be on a page that does not exist. -/
theorem C48_bound_false : ¬ SetenvSpec (fun o => o ≠ 0) := by
  intro h
  obtain ⟨s', w', es', h1, -⟩ := h envProc [] [1, 0, 7, 7] _ [65] [52, 53, 54, 55, 56] 9 16 1 envProc_good envProc_one (by decide) (by decide) (by decide) (by decide) (by decide)
    (by decide) (by decide) (by decide) (by decide)
  have e : setenv envProc [1, 0, 7, 7] 9 16 1 = ub := by
    have : isUb (setenv envProc [1, 0, 7, 7] 9 16 1) = true := by decide +kernel
    revert this
    cases setenv envProc [1, 0, 7, 7] 9 16 1 <;> simp [isUb]
  rw [e] at h1
  cases h1

theorem C48_false : ¬ C48_full := fun h => C48_unsetenv_false h.2

/-- `getenv` gives the value of the first entry with the name, or a null pointer. -/
theorem C48_getenv {m : Mem} {w : Words} {es : List (List Byte)} {k : List Byte} {name b : Nat} (h : Environ m w es b) (hk : CStr m name k)
    (hl : k.length < 2 ^ 31) :
    match envValue k es with
    | none => getenv m w name = ok none
    | some v => ∃ q, getenv m w name = ok (some q) ∧ CStr m q v :=
  getenv_ok h hk (by unfold INT_MAX; omega)

/-- `setenv` sets the variable and changes no other.  Missing for the full property: overwrite 0, and a block that ends with a page. -/
theorem C48_setenv_partial {s : Proc} {bs : List Block} {w : Words} {es : List (List Byte)} {k v : List Byte} {name value : Nat} {o : Int}
    (hg : Good s bs) (he : Environ s.mem w es s.next) (hn : VarName k) (hk : CStr s.mem name k) (hv : CStr s.mem value v)
    (h1 : name + k.length < s.next) (h2 : value + v.length < s.next) (h3 : k.length + v.length < 2 ^ 31)
    (hr : s.next + (k.length + v.length + 2) + 7 ≤ s.limit) (hw : es.length + 1 < w.length)
    (hpage : ∀ p, s.next ≤ p → p ≤ s.next + 7 → 8 ∣ p → ¬ s.page ∣ p + (k.length + v.length + 2)) :
    ∃ s' w' es' p, setenv s w name value o = ok (s', w', 0) ∧ Good s' ((p, k ++ 61 :: v ++ [0]) :: bs) ∧ Environ s'.mem w' es' s'.next ∧
      envValue k es' = some v ∧ ∀ k', VarName k' → k' ≠ k → envValue k' es' = envValue k' es := by
  obtain ⟨p, s', w', e1, e2, e3, -⟩ := setenv_ok (o := o) hg he hk hv h1 h2 (by unfold INT_MAX; omega) (by unfold INT_MAX; omega) hr hw hpage
  exact ⟨s', w', _, p, e1, e2, e3, setEntry_self, fun k' hk' hne => setEntry_other hn hk' hne⟩

/-- `unsetenv` never changes another variable. -/
theorem C48_unsetenv_other {m : Mem} {w : Words} {es : List (List Byte)} {k : List Byte} {name b : Nat} (he : Environ m w es b) (hn : VarName k)
    (hk : CStr m name k) (hl : k.length < 2 ^ 31) :
    ∃ w' es', unsetenv m w name = ok w' ∧ Environ m w' es' b ∧ ∀ k', VarName k' → k' ≠ k → envValue k' es' = envValue k' es := by
  obtain ⟨w', e1, -, e3⟩ := unsetenv_ok he hk (by unfold INT_MAX; omega)
  exact ⟨w', _, e1, e3, fun k' hk' hne => unsetEntry_other hn hk' hne _⟩

/-- `unsetenv` removes the variable when no two entries with its name follow each other. -/
theorem C48_unsetenv_partial {m : Mem} {w : Words} {es : List (List Byte)} {k : List Byte} {name b : Nat} (he : Environ m w es b) (hn : VarName k)
    (hk : CStr m name k) (hl : k.length < 2 ^ 31) (hd : ∀ es1 e f es2, es = es1 ++ e :: f :: es2 → entryValue k e = none ∨ entryValue k f = none) :
    ∃ w' es', unsetenv m w name = ok w' ∧ Environ m w' es' b ∧ envValue k es' = none ∧ ∀ k', VarName k' → k' ≠ k → envValue k' es' = envValue k' es := by
  obtain ⟨w', e1, -, e3⟩ := unsetenv_ok he hk (by unfold INT_MAX; omega)
  exact ⟨w', _, e1, e3, unsetEntry_self _ hd, fun k' hk' hne => unsetEntry_other hn hk' hne _⟩

/-- A whole history: after any sequence of calls of setenv and unsetenv, getenv gives what a map would give.  The environment has no
variable twice at the start; no text "name=value" and the two bytes after it fill a multiple of eight bytes; and there is room. -/
theorem C48_history_partial {s : Proc} {bs : List Block} {w : Words} {es : List (List Byte)} {cs : List EnvCall} (hg : Good s bs)
    (he : Environ s.mem w es s.next) (hd : OneEntryEach es) (hp : 8 ∣ s.page) (hv : ∀ c ∈ cs, c.Valid s.mem s.next)
    (hr : s.next + (cs.map EnvCall.need).sum ≤ s.limit) (hw : es.length + 1 + (cs.map EnvCall.words).sum ≤ w.length) :
    ∃ s' w' bs', runEnvCalls s w cs = ok (s', w') ∧ Good s' bs' ∧ (∀ b ∈ bs, b ∈ bs') ∧
      ∀ k name, VarName k → CStr s'.mem name k → k.length < 2 ^ 31 →
        match (cs.foldl EnvCall.effect fun k => envValue k es) k with
        | none => getenv s'.mem w' name = ok none
        | some v => ∃ q, getenv s'.mem w' name = ok (some q) ∧ CStr s'.mem q v := by
  obtain ⟨s', w', es', bs', e1, e2, e3, e4, e5⟩ := runEnvCalls_ok cs (fun k => envValue k es) hg he hd hp hv hr hw fun _ _ => rfl
  refine ⟨s', w', bs', e1, e2, e4, fun k name hk hc hl => ?_⟩
  rw [← e5 k hk]
  exact C48_getenv e3 hc hl

/-- The hypotheses are met: set A, set B, unset A. -/
example : ∃ cs : List EnvCall, cs.length = 3 ∧ (∀ c ∈ cs, c.Valid envProc.mem envProc.next) ∧ OneEntryEach [[65, 61, 49]] ∧ 8 ∣ envProc.page ∧
    envProc.next + (cs.map EnvCall.need).sum ≤ envProc.limit ∧ 1 + 1 + (cs.map EnvCall.words).sum ≤ 4 ∧
    okAnd' (runEnvCalls envProc [1, 0, 7, 7] cs) (fun r => decide (r.2 = [40, 0, 0, 7] ∧ CStr r.1.mem 42 [51])) = true := by
  refine ⟨[.set [65] [50] 9 7 1, .set [66] [51] 13 11 1, .unset [65] 9], rfl, ?_, List.pairwise_singleton _ _, by decide, by decide, by decide, by decide +kernel⟩
  intro c hc
  simp only [List.mem_cons, List.not_mem_nil, or_false] at hc
  rcases hc with rfl | rfl | rfl
  · exact ⟨by decide, by decide, by decide, by decide, by decide, by decide, by decide, by decide⟩
  · exact ⟨by decide, by decide, by decide, by decide, by decide, by decide, by decide, by decide⟩
  · exact ⟨by decide, by decide, by decide, by decide⟩

end Mes.Props
