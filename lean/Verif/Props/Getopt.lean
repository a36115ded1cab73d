import Verif.Proof.GetoptLong
/-
Properties of `getopt` and `getopt_long`: C63.
-/
namespace Mes.Props
open Mes.C Res Spec

/-- C63, the full property: a program that calls `getopt` until it returns EOF is told the options of its command line, in their order
and with their arguments, and `optind` is then the number of the first operand.  The letters of the options are ASCII characters. -/
def C63_full : Prop :=
  ∀ (m : Mem) (argc : Nat) (argv : Words) (o : Nat) (os : List Byte) (args rest : List (List Byte)) (found : List Found) (fuel : Nat),
    CStr m o os → (∀ c ∈ os, c.toNat < 128) → ArgVector m argv 1 args → 1 + args.length = argc → Parsed os true args found rest →
    found.length < fuel →
    ∃ l st, getoptAll m argc argv o fuel optStart = ok (l, st) ∧ ShowsOptions m l found ∧ ArgVector m argv st.optind rest ∧
      st.optind + rest.length = argc

/-- There is exactly one parse of a command line: the specification says something about each of them. -/
theorem C63_parse (os : List Byte) (delim : Bool) (args : List (List Byte)) :
    ∃ found rest, Parsed os delim args found rest ∧
      ∀ found' rest', Parsed os delim args found' rest' → found = found' ∧ rest = rest' := by
  obtain ⟨found, rest, h⟩ := parsed_total os delim args
  exact ⟨found, rest, h, fun _ _ h' => parsed_unique h h'⟩

/-- What `getopt` does with each command line: the options, as if `--` were an argument like the others. -/
theorem C63_calls (m : Mem) (argc : Nat) (argv : Words) (o : Nat) (os : List Byte) (args rest : List (List Byte)) (found : List Found)
    (fuel : Nat) (ho : CStr m o os) (hos : ∀ c ∈ os, c.toNat < 128) (ha : ArgVector m argv 1 args) (hn : 1 + args.length = argc)
    (h : Parsed os false args found rest) (hf : found.length < fuel) :
    ∃ l st, getoptAll m argc argv o fuel optStart = ok (l, st) ∧ ShowsOptions m l found ∧ ArgVector m argv st.optind rest ∧
      st.optind + rest.length = argc := by
  have key := parsed_calls ho hos h { optarg := none, optind := 1, nextchar := none, first := 1, last := 1 } fuel (.inl rfl)
    (by simp) rfl ha hn hf
  obtain ⟨fuel, rfl⟩ : ∃ f, fuel = f + 1 := ⟨fuel - 1, by omega⟩
  obtain ⟨l, st, h1, h2⟩ := key
  refine ⟨l, st, ?_, h2⟩
  rw [← h1]
  unfold getoptAll
  rfl

/-- The full property holds for command lines without `--`. -/
theorem C63_options_partial (m : Mem) (argc : Nat) (argv : Words) (o : Nat) (os : List Byte) (args rest : List (List Byte))
    (found : List Found) (fuel : Nat) (ho : CStr m o os) (hos : ∀ c ∈ os, c.toNat < 128) (ha : ArgVector m argv 1 args)
    (hn : 1 + args.length = argc) (h : Parsed os true args found rest) (hf : found.length < fuel) (hno : [45, 45] ∉ args) :
    ∃ l st, getoptAll m argc argv o fuel optStart = ok (l, st) ∧ ShowsOptions m l found ∧ ArgVector m argv st.optind rest ∧
      st.optind + rest.length = argc :=
  C63_calls m argc argv o os args rest found fuel ho hos ha hn (parsed_delim h hno) hf

/-- The full property is false: `--` does not end the options but is taken for an unknown option. -/
theorem C63_false : ¬ C63_full := by
  intro h
  obtain ⟨l, st, h1, h2, _⟩ := h [97, 0, 45, 45, 0] 2 [0, 2] 0 [97] [[45, 45]] [] [] 3 (by decide) (by decide)
    (by
      intro j s hs
      match j, hs with
      | 0, hs => cases hs; exact ⟨2, rfl, by decide⟩
      | j + 1, hs => simp at hs) rfl (.stop rfl) (by decide)
  have e : getoptAll [97, 0, 45, 45, 0] 2 [0, 2] 0 3 optStart =
    ok ([(63, none)], { optarg := none, optind := 2, nextchar := some 4, first := 1, last := 1 }) := by rfl
  rw [e] at h1
  cases h1
  exact h2

/-- The command line `-ab1 -c x -d y z` with the options `ab:cd:e`: five results, and `y` is no operand. -/
example :
    let m : Mem := [97, 98, 58, 99, 100, 58, 101, 0] ++ [45, 97, 98, 49, 0] ++ [45, 99, 0] ++ [45, 100, 0] ++ [121, 0] ++ [122, 0]
    let args : List (List Byte) := [[45, 97, 98, 49], [45, 99], [45, 100], [121], [122]]
    ∃ l st, getoptAll m 6 [0, 8, 13, 16, 19, 21] 0 9 optStart = ok (l, st) ∧
      ShowsOptions m l [⟨some 97, none⟩, ⟨some 98, some [49]⟩, ⟨some 99, none⟩, ⟨some 100, some [121]⟩] ∧ st.optind = 5 := by
  intro m args
  have hA : ArgVector m [0, 8, 13, 16, 19, 21] 1 args := by
    intro j s hs
    match j, hs with
    | 0, hs => cases hs; exact ⟨8, rfl, by decide⟩
    | 1, hs => cases hs; exact ⟨13, rfl, by decide⟩
    | 2, hs => cases hs; exact ⟨16, rfl, by decide⟩
    | 3, hs => cases hs; exact ⟨19, rfl, by decide⟩
    | 4, hs => cases hs; exact ⟨21, rfl, by decide⟩
    | j + 5, hs => simp [args] at hs
  obtain ⟨l, st, h1, h2, h3, h4⟩ := C63_options_partial m 6 [0, 8, 13, 16, 19, 21] 0 [97, 98, 58, 99, 100, 58, 101] args [[122]]
    [⟨some 97, none⟩, ⟨some 98, some [49]⟩, ⟨some 99, none⟩, ⟨some 100, some [121]⟩] 9 (by decide) (by decide) hA rfl
    (.letters (by decide) (by decide) (.flag (by decide) (.attached (.inl (by decide)) (by decide)
      (.letters (by decide) (by decide) (.flag (by decide) (.done
        (.letters (by decide) (by decide) (.separate (by decide)
          (.operand (.inl (fun cs h => by cases h))))))))))) (by decide) (by decide)
  refine ⟨l, st, h1, h2, ?_⟩
  have : st.optind + 1 = 6 := h4
  omega

/-! ### Long options -/

/-- The full property for `--` in `getopt_long`: it ends the options. -/
def C63_long_full : Prop :=
  ∀ (m : Mem) (argc : Nat) (argv : Words) (o : Nat) (os : List Byte) (l : List LongOpt) (names : List (List Byte)) (st : Opt) (a : Nat),
    CStr m o os → LongNames m l names → st.optind ≠ 0 → AtElement m st → st.optind < argc → argv[st.optind]? = some a →
    CStr m a [45, 45] →
    ∃ r, getoptLong m argc argv o l st = ok r ∧ r.code = -1 ∧ r.st.optind = st.optind + 1

/-- It is false: `--` selects the only long option of a program. -/
theorem C63_long_false : ¬ C63_long_full := by
  intro h
  obtain ⟨r, h1, h2, _⟩ := h [0, 45, 45, 0, 120, 0] 2 [0, 1] 0 [] [⟨4, 0, none, 7⟩] [[120]] ⟨none, 1, none, 1, 1⟩ 1 (by decide)
    ⟨rfl, fun i o nm h1 h2 => by
      match i, h1, h2 with
      | 0, h1, h2 => cases h1; cases h2; exact ⟨by decide, by decide⟩
      | i + 1, h1, _ => simp at h1⟩ (by decide) (.inl rfl) (by decide) rfl (by decide)
  have e : getoptLong [0, 45, 45, 0, 120, 0] 2 [0, 1] 0 [⟨4, 0, none, 7⟩] ⟨none, 1, none, 1, 1⟩ =
    ok { code := 7, st := { optarg := none, optind := 2, nextchar := some 3, first := 1, last := 1 }, longind := some 0 } := by rfl
  rw [e] at h1
  cases h1
  exact absurd h2 (by decide)

/-- A call of `getopt_long` at an argument `--name` or `--name=value`, where `name` is not empty: the option of that name, or the only
one whose name begins so, is selected; its argument is `value`, or the next argument of the program.  If no option is selected, or its
argument is missing or not allowed, the result is `?`; the call goes behind the argument. -/
theorem C63_long_partial (m : Mem) (argc : Nat) (argv : Words) (o : Nat) (l : List LongOpt) (names : List (List Byte)) (st : Opt)
    (a : Nat) (n : List Byte) (value next : Option (List Byte)) (hl : LongNames m l names) (hi : st.optind ≠ 0) (hf : AtElement m st)
    (hlt : st.optind < argc) (ha : argv[st.optind]? = some a)
    (hs : CStr m a (45 :: 45 :: (n ++ valueText value))) (hn : 61 ∉ n) (_hne : n ≠ [])
    (hlen : (n ++ valueText value).length ≤ INT_MAX)
    (hnext : if st.optind + 1 < argc then ∃ b s, argv[st.optind + 1]? = some b ∧ CStr m b s ∧ next = some s else next = none) :
    ∃ r, getoptLong m argc argv o l st = ok r ∧ AtElement m r.st ∧ r.st.first = st.first ∧ r.st.last = st.last ∧
      ((∃ i opt, Selects names n i ∧ l[i]? = some opt ∧
        match longArg opt.hasArg value next with
        | none => r.code = 63 ∧ r.st.optind = st.optind + 1 ∧ r.longind = none ∧ r.flag = none
        | some (arg, k) => r.st.optind = st.optind + k ∧ r.longind = some i ∧
          (match r.st.optarg, arg with
            | none, none => True
            | some x, some s => CStr m x s
            | _, _ => False) ∧
          (match opt.flag with
            | none => r.code = opt.val ∧ r.flag = none
            | some f => r.code = 0 ∧ r.flag = some (f, opt.val))) ∨
      ((∀ i, ¬ Selects names n i) ∧ r.code = 63 ∧ r.st.optind = st.optind + 1 ∧ r.longind = none ∧ r.flag = none)) := by
  have htail' : valueText value = [] ∨ ∃ v, valueText value = 61 :: v := by
    cases value with
    | none => exact .inl rfl
    | some v => exact .inr ⟨v, rfl⟩
  have h2 : CStr m (a + 2) (n ++ valueText value) := hs.tail.tail
  rw [getoptLong_start hi hf (by omega) ha hs]
  rcases longFind_selects h2 hl with ⟨i, opt, am, e, hsel, hopt, hfind, hok⟩ | ⟨hno, f, am, hfind, hok⟩
  · rw [optAt_long (st := { st with optarg := none, nextchar := some (a + 2) }) ha hs hn htail' hfind hlen, if_neg hok]
    obtain ⟨r, h3, h4, h5, h6, h7⟩ := longFound_ok (argv := argv) (argc := argc)
      (st := { st with optarg := none, nextchar := some (a + 2) }) h2 hlen hlt rfl opt i hnext
    exact ⟨r, h3, h4, h5, h6, .inl ⟨i, opt, hsel, hopt, h7⟩⟩
  · rw [optAt_long (st := { st with optarg := none, nextchar := some (a + 2) }) ha hs hn htail' hfind hlen]
    have hend : m[a + 2 + (n ++ valueText value).length]? = some 0 := h2.rd_end
    by_cases ham : am = true
    · rw [if_pos ⟨ham, rfl⟩]
      exact ⟨_, rfl, .inr ⟨_, rfl, hend⟩, rfl, rfl, .inr ⟨hno, rfl, rfl, rfl, rfl⟩⟩
    · rw [if_neg (fun q => ham q.1)]
      have := hok.resolve_left ham
      subst this
      exact ⟨_, rfl, .inr ⟨_, rfl, hend⟩, rfl, rfl, .inr ⟨hno, rfl, rfl, rfl, rfl⟩⟩

/-- At an argument that does not begin with `--`, and between the letters of such an argument, `getopt_long` does what `getopt` does. -/
theorem C63_long_short (m : Mem) (argc : Nat) (argv : Words) (o : Nat) (l : List LongOpt) (st : Opt) (hi : st.optind ≠ 0)
    (hel : st.optind ≠ argc → ∃ a s, argv[st.optind]? = some a ∧ CStr m a s ∧ ∀ t, s ≠ 45 :: 45 :: t)
    (hp : AtElement m st ∨ st.optind ≠ argc) : getoptLong m argc argv o l st = getopt m argc argv o st :=
  getoptLong_short hi hel hp

/-- `--ou=x` with the options `help` and `output`, the latter with an argument. -/
example :
    let m : Mem := [104, 101, 108, 112, 0, 111, 117, 116, 112, 117, 116, 0, 45, 45, 111, 117, 61, 120, 0]
    ∃ r, getoptLong m 2 [0, 12] 4 [⟨0, 0, none, 1⟩, ⟨5, 1, none, 2⟩] ⟨none, 1, none, 1, 1⟩ = ok r ∧ r.code = 2 ∧ r.st.optind = 2 ∧
      r.longind = some 1 ∧ r.st.optarg = some 17 := ⟨_, rfl, rfl, rfl, rfl, rfl⟩

end Mes.Props
