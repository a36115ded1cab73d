import Verif.Model.CGetopt
import Verif.Spec.Options
import Verif.Proof.Environ
/-
Lemmas about `getopt`.
-/
namespace Mes.C
open Res Spec

/-- The first place of a byte in a string. -/
theorem strchr_split {m : Mem} {a : Nat} {s : List Byte} (h : CStr m a s) {c : Byte} (hc : c ≠ 0) :
    (c ∉ s ∧ strchr m a (sc c) = ok none) ∨
    ∃ u v, s = u ++ c :: v ∧ c ∉ u ∧ strchr m a (sc c) = ok (some (a + u.length)) := by
  rw [strchr_ne h _ (fun e => hc (sc_ne_zero.mp e))]
  have e : (fun b => decide (sc b = sc c)) = (fun b => b == c) := by
    funext b
    by_cases hb : b = c
    · simp [hb]
    · have : ¬ sc b = sc c := fun q => hb (sc_inj q)
      simp [hb, this]
  rw [e]
  clear e h hc
  generalize a = a
  suffices H : (c ∉ s ∧ s.findIdx? (fun b => b == c) = none) ∨
      ∃ u v, s = u ++ c :: v ∧ c ∉ u ∧ s.findIdx? (fun b => b == c) = some u.length by
    rcases H with ⟨h1, h2⟩ | ⟨u, v, h1, h2, h3⟩
    · exact .inl ⟨h1, by rw [h2]; rfl⟩
    · exact .inr ⟨u, v, h1, h2, by rw [h3]; rfl⟩
  induction s with
  | nil => exact .inl ⟨by simp, rfl⟩
  | cons b s ih =>
    by_cases hb : b = c
    · subst hb
      exact .inr ⟨[], s, rfl, by simp, by simp [List.findIdx?_cons]⟩
    · rcases ih with ⟨h1, h2⟩ | ⟨u, v, h1, h2, h3⟩
      · exact .inl ⟨by simp [h1, Ne.symm hb], by simp [List.findIdx?_cons, hb, h2]⟩
      · exact .inr ⟨b :: u, v, by simp [h1], by simp [h2, Ne.symm hb], by simp [List.findIdx?_cons, hb, h3]⟩

theorem takes_none {os : List Byte} {c : Byte} (h : c ∉ os) : takes os c = none := by
  have : os.dropWhile (· ≠ c) = [] := by
    induction os with
    | nil => rfl
    | cons b os ih =>
      simp only [List.mem_cons, not_or] at h
      rw [List.dropWhile_cons, if_pos (by simpa using Ne.symm h.1), ih h.2]
  unfold takes
  rw [this]
  simp

theorem dropWhile_split {u v : List Byte} {c : Byte} (h : c ∉ u) : (u ++ c :: v).dropWhile (· ≠ c) = c :: v := by
  induction u with
  | nil => simp
  | cons b u ih =>
    simp only [List.mem_cons, not_or] at h
    rw [List.cons_append, List.dropWhile_cons, if_pos (by simpa using Ne.symm h.1), ih h.2]

/-- `takes` with the letter found. -/
theorem takes_split {u v : List Byte} {c : Byte} (h : c ∉ u) (hc : c ≠ 58) :
    takes (u ++ c :: v) c = some (match v with
      | 58 :: 58 :: _ => .perhaps
      | 58 :: _ => .argument
      | _ => .nothing) := by
  unfold takes
  rw [if_neg hc, dropWhile_split h]
  match v with
  | [] => rfl
  | b :: w =>
    by_cases hb : b = 58
    · subst hb
      match w with
      | [] => rfl
      | d :: x =>
        by_cases hd : d = 58
        · subst hd; rfl
        · simp [hd]
    · simp [hb]

variable {m : Mem} {argc : Nat} {argv : Words} {o p : Nat} {os cs : List Byte} {c : Byte} {st : Opt}

/-- The byte behind a letter. -/
theorem next_byte (h : CStr m p (c :: cs)) : ∃ d, m.rd (p + 1) = ok d ∧ (d = 0 ↔ cs = []) := by
  match cs, h with
  | [], h => exact ⟨0, rd_ok h.tail.nil, by simp⟩
  | d :: cs, h => exact ⟨d, rd_ok h.tail.head.1, by simpa using h.tail.head.2⟩

/-- `optind` after the letter at `nextchar`. -/
def bumped (st : Opt) (cs : List Byte) : Opt := if cs = [] then { st with optind := st.optind + 1 } else st

theorem bumped_eq {d : Byte} (h : d = 0 ↔ cs = []) :
    (if d = 0 then { st with optind := st.optind + 1 } else st) = bumped st cs := by
  unfold bumped
  by_cases hd : d = 0
  · rw [if_pos hd, if_pos (h.mp hd)]
  · rw [if_neg hd, if_neg (fun q => hd (h.mpr q))]

theorem optShort_unknown (ho : CStr m o os) (h : CStr m p (c :: cs)) (ht : takes os c = none) :
    optShort m argc argv o st p = ok { code := 63, st := { bumped st cs with nextchar := some (p + 1) } } := by
  obtain ⟨d, hd, hd'⟩ := next_byte h
  unfold optShort
  rw [rd_ok h.head.1, ok_bind]
  rcases strchr_split ho h.head.2 with ⟨_, h2⟩ | ⟨u, v, h1, h2, h3⟩
  · simp only [h2, ok_bind, hd, bumped_eq hd']
  · have : c = 58 := by
      apply Classical.byContradiction
      intro hc
      rw [h1, takes_split h2 hc] at ht
      cases ht
    simp only [h3, ok_bind, hd, bumped_eq hd', if_pos this]

/-- The two bytes behind the letter in the string of options. -/
theorem takes_bytes (ho : CStr m o os) (hc : c ≠ 0) {t : Takes} (ht : takes os c = some t) :
    c ≠ 58 ∧ ∃ k, strchr m o (sc c) = ok (some k) ∧
      match t with
      | .nothing => ∃ d, m.rd (k + 1) = ok d ∧ d ≠ 58
      | .argument => m.rd (k + 1) = ok 58 ∧ ∃ d, m.rd (k + 2) = ok d ∧ d ≠ 58
      | .perhaps => m.rd (k + 1) = ok 58 ∧ m.rd (k + 2) = ok 58 := by
  have hc' : c ≠ 58 := by
    intro e
    unfold takes at ht
    rw [if_pos e] at ht
    cases ht
  refine ⟨hc', ?_⟩
  rcases strchr_split ho hc with ⟨h1, _⟩ | ⟨u, v, h1, h2, h3⟩
  · rw [takes_none h1] at ht; cases ht
  refine ⟨_, h3, ?_⟩
  rw [h1, takes_split h2 hc'] at ht
  rw [h1] at ho
  have hv := ho.suffix.tail
  rw [show o + u.length + 2 = o + u.length + 1 + 1 from rfl]
  generalize o + u.length + 1 = q at *
  match v, ht, hv with
  | [], ht, hv =>
    cases ht
    exact ⟨0, rd_ok hv.nil, by decide⟩
  | b :: w, ht, hv =>
    by_cases hb : b = 58
    · subst hb
      match w, ht, hv with
      | [], ht, hv =>
        cases ht
        exact ⟨rd_ok hv.head.1, 0, rd_ok hv.tail.nil, by decide⟩
      | d :: x, ht, hv =>
        by_cases hd : d = 58
        · subst hd
          cases ht
          exact ⟨rd_ok hv.head.1, rd_ok hv.tail.head.1⟩
        · have : t = .argument := by simpa [hd] using ht.symm
          subst this
          exact ⟨rd_ok hv.head.1, d, rd_ok hv.tail.head.1, hd⟩
    · have : t = .nothing := by simpa [hb] using ht.symm
      subst this
      exact ⟨b, rd_ok hv.head.1, hb⟩

theorem optShort_flag (ho : CStr m o os) (h : CStr m p (c :: cs)) (ht : takes os c = some .nothing) :
    optShort m argc argv o st p = ok { code := sc c, st := { bumped st cs with nextchar := some (p + 1) } } := by
  obtain ⟨d, hd, hd'⟩ := next_byte h
  obtain ⟨hc, k, hk, e, he, he'⟩ := takes_bytes ho h.head.2 ht
  unfold optShort
  simp only [rd_ok h.head.1, ok_bind, hk, hd, bumped_eq hd', if_neg hc, he, if_neg he']

theorem optShort_attached (ho : CStr m o os) (h : CStr m p (c :: cs)) (hcs : cs ≠ [])
    (ht : takes os c = some .argument ∨ takes os c = some .perhaps) :
    optShort m argc argv o st p =
      ok { code := sc c, st := { st with optarg := some (p + 1), optind := st.optind + 1, nextchar := none } } := by
  obtain ⟨d, hd, hd'⟩ := next_byte h
  have hd0 : d ≠ 0 := fun q => hcs (hd'.mp q)
  unfold optShort
  rcases ht with ht | ht
  · obtain ⟨hc, k, hk, h1, e, he, he'⟩ := takes_bytes ho h.head.2 ht
    simp only [rd_ok h.head.1, ok_bind, hk, hd, if_neg hd0, if_neg hc, h1, he, if_neg he', ne_eq, hd0, not_false_eq_true, if_true, if_false]
  · obtain ⟨hc, k, hk, h1, h2⟩ := takes_bytes ho h.head.2 ht
    simp only [rd_ok h.head.1, ok_bind, hk, hd, if_neg hd0, if_neg hc, h1, h2, ne_eq, hd0, not_false_eq_true, if_true, if_false]

theorem optShort_without (ho : CStr m o os) (h : CStr m p [c]) (ht : takes os c = some .perhaps) :
    optShort m argc argv o st p =
      ok { code := sc c, st := { st with optarg := none, optind := st.optind + 1, nextchar := none } } := by
  obtain ⟨d, hd, hd'⟩ := next_byte h
  have hd0 : d = 0 := hd'.mpr rfl
  subst hd0
  obtain ⟨hc, k, hk, h1, h2⟩ := takes_bytes ho h.head.2 ht
  unfold optShort
  simp only [rd_ok h.head.1, ok_bind, hk, hd, if_neg hc, h1, h2, ne_eq, not_true, if_true, if_false]

theorem optShort_separate (ho : CStr m o os) (h : CStr m p [c]) (ht : takes os c = some .argument) (hi : st.optind + 1 ≠ argc)
    {a : Nat} (ha : argv[st.optind + 1]? = some a) :
    optShort m argc argv o st p =
      ok { code := sc c, st := { st with optarg := some a, optind := st.optind + 1 + 1, nextchar := none } } := by
  obtain ⟨d, hd, hd'⟩ := next_byte h
  have hd0 : d = 0 := hd'.mpr rfl
  subst hd0
  obtain ⟨hc, k, hk, h1, e, he, he'⟩ := takes_bytes ho h.head.2 ht
  unfold optShort
  simp only [rd_ok h.head.1, ok_bind, hk, hd, if_neg hc, h1, he, if_neg he', ne_eq, not_true, if_true, if_false, if_neg hi,
    Words.get, ha, Res.ofRead]

theorem optShort_missing (ho : CStr m o os) (h : CStr m p [c]) (ht : takes os c = some .argument) (hi : st.optind + 1 = argc) :
    optShort m argc argv o st p = ok { code := 63, st := { st with optind := st.optind + 1, nextchar := none } } := by
  obtain ⟨d, hd, hd'⟩ := next_byte h
  have hd0 : d = 0 := hd'.mpr rfl
  subst hd0
  obtain ⟨hc, k, hk, h1, e, he, he'⟩ := takes_bytes ho h.head.2 ht
  unfold optShort
  simp only [rd_ok h.head.1, ok_bind, hk, hd, if_neg hc, h1, he, if_neg he', ne_eq, not_true, if_true, if_false, if_pos hi]

/-- The calls that a letter with an optarg of the last call makes: `optarg` is cleared first. -/
theorem getopt_mid (hi : st.optind ≠ 0) (hn : st.nextchar = some p) (h : CStr m p (c :: cs)) :
    getopt m argc argv o st = optShort m argc argv o { st with optarg := none } p := by
  unfold getopt getoptInternal
  simp only [if_neg hi, hn, rd_ok h.head.1, ok_bind, if_neg h.head.2, optAt]

/-- No letters are left. -/
def AtElement (m : Mem) (st : Opt) : Prop := st.nextchar = none ∨ ∃ p, st.nextchar = some p ∧ m[p]? = some 0

theorem getopt_fresh (hi : st.optind ≠ 0) (hf : AtElement m st) :
    getopt m argc argv o st =
      if st.optind = argc then
        ok { code := -1,
             st := if st.first ≠ st.last then { st with optarg := none, optind := st.first } else { st with optarg := none } }
      else (do
        let a ← argv.get st.optind
        let c0 ← m.rd a
        if c0 ≠ 45 then ok { code := -1, st := { st with optarg := none } }
        else do
          let c1 ← m.rd (a + 1)
          if c1 = 0 then ok { code := -1, st := { st with optarg := none } }
          else optShort m argc argv o { st with optarg := none, nextchar := some (a + 1) } (a + 1)) := by
  unfold getopt getoptInternal
  rcases hf with hf | ⟨p, hp, h0⟩
  · simp only [if_neg hi, hf, ok_bind, optAt]
    simp
  · simp only [if_neg hi, hp, rd_ok h0, ok_bind, optAt]
    simp

theorem _root_.Mes.Spec.ArgVector.head {i : Nat} {s : List Byte} {as : List (List Byte)} (h : ArgVector m argv i (s :: as)) :
    ∃ a, argv[i]? = some a ∧ CStr m a s := h 0 s rfl

theorem _root_.Mes.Spec.ArgVector.tail {i : Nat} {s : List Byte} {as : List (List Byte)} (h : ArgVector m argv i (s :: as)) : ArgVector m argv (i + 1) as := by
  intro j t ht
  have := h (j + 1) t (by simpa using ht)
  rwa [show i + 1 + j = i + (j + 1) by omega]

theorem takes_mem {t : Takes} (h : takes os c = some t) : c ∈ os :=
  Classical.byContradiction fun q => by rw [takes_none q] at h; cases h

theorem getoptAll_step {fuel : Nat} {r : OptResult} {l : List (Int × Option Nat)} {st' : Opt}
    (h : getopt m argc argv o st = ok r) (hc : r.code ≠ -1) (h' : getoptAll m argc argv o fuel r.st = ok (l, st')) :
    getoptAll m argc argv o (fuel + 1) st = ok ((r.code, r.st.optarg) :: l, st') := by
  unfold getoptAll
  rw [h, ok_bind, if_neg hc, h', ok_bind]

theorem getoptAll_end {fuel : Nat} {st' : Opt} (h : getopt m argc argv o st = ok { code := -1, st := st' }) :
    getoptAll m argc argv o (fuel + 1) st = ok ([], st') := by
  unfold getoptAll
  rw [h, ok_bind, if_pos rfl]

theorem sc_ascii (h : c.toNat < 128) : sc c = (c.toNat : Int) := if_pos h

theorem bumped_optarg : (bumped st cs).optarg = st.optarg := by unfold bumped; split <;> rfl
theorem bumped_optind : (bumped st cs).optind = st.optind + if cs = [] then 1 else 0 := by unfold bumped; split <;> rfl
theorem bumped_first : (bumped st cs).first = st.first := by unfold bumped; split <;> rfl
theorem bumped_last : (bumped st cs).last = st.last := by unfold bumped; split <;> rfl

theorem bumped_place : (bumped st cs).optind + (if cs = [] then 0 else 1) = st.optind + 1 := by
  rw [bumped_optind]
  split <;> rfl

/-- What the calls leave. -/
def Leaves (m : Mem) (argc : Nat) (argv : Words) (o : Nat) (fuel : Nat) (st : Opt) (found : List Found) (rest : List (List Byte)) :
    Prop :=
  ∃ l st', getoptAll m argc argv o fuel st = ok (l, st') ∧ ShowsOptions m l found ∧ ArgVector m argv st'.optind rest ∧
    st'.optind + rest.length = argc

theorem leaves_step {fuel : Nat} {r : OptResult} {f : Found} {found : List Found} {rest : List (List Byte)}
    (h : getopt m argc argv o st = ok r) (hc : r.code = match f.letter with
      | some c => (c.toNat : Int)
      | none => 63)
    (ha : match r.st.optarg, f.arg with
      | none, none => True
      | some p, some s => CStr m p s
      | _, _ => False) (h' : Leaves m argc argv o fuel r.st found rest) :
    Leaves m argc argv o (fuel + 1) st (f :: found) rest := by
  obtain ⟨l, st', h1, h2, h3, h4⟩ := h'
  refine ⟨_, st', getoptAll_step h ?_ h1, ⟨hc, ha, h2⟩, h3, h4⟩
  rw [hc]
  split <;> omega

mutual

theorem parsed_calls (ho : CStr m o os) (hos : ∀ c ∈ os, c.toNat < 128) {as rest : List (List Byte)} {found : List Found}
    (h : Parsed os false as found rest) (st : Opt) (fuel : Nat) (hf : AtElement m st) (hi : st.optind ≠ 0)
    (hl : st.first = st.last) (ha : ArgVector m argv st.optind as) (hn : st.optind + as.length = argc) (hfuel : found.length < fuel) :
    Leaves m argc argv o fuel st found rest := by
  match h with
  | .done =>
    obtain ⟨fuel, rfl⟩ : ∃ f, fuel = f + 1 := ⟨fuel - 1, by omega⟩
    refine ⟨_, { st with optarg := none }, getoptAll_end (by rw [getopt_fresh hi hf, if_pos (by simpa using hn), if_neg (by simpa using hl)]), trivial, ?_, hn⟩
    intro j s hs
    cases hs
  | .operand (a := a) (as := as) ho' =>
    obtain ⟨fuel, rfl⟩ : ∃ f, fuel = f + 1 := ⟨fuel - 1, by omega⟩
    obtain ⟨q, hq, hs⟩ := ha.head
    have hne : st.optind ≠ argc := by simp only [List.length_cons] at hn; omega
    refine ⟨_, { st with optarg := none }, getoptAll_end ?_, trivial, ha, hn⟩
    rw [getopt_fresh hi hf, if_neg hne]
    simp only [Words.get, hq, Res.ofRead, ok_bind]
    match a, ho', hs with
    | [], _, hs => rw [rd_ok hs.nil, ok_bind, if_pos (by decide)]
    | c :: cs, ho', hs =>
      rw [rd_ok hs.head.1, ok_bind]
      by_cases hc : c = 45
      · subst hc
        have : cs = [] := by
          rcases ho' with ho' | ho'
          · exact absurd rfl (ho' cs)
          · simpa using ho'
        subst this
        rw [if_neg (by simp), rd_ok hs.tail.nil, ok_bind, if_pos rfl]
      · rw [if_pos hc]
  | .letters (cs := cs) (as := as) hcs _ p =>
    obtain ⟨fuel, rfl⟩ : ∃ f, fuel = f + 1 := ⟨fuel - 1, by omega⟩
    obtain ⟨q, hq, hs⟩ := ha.head
    have hne : st.optind ≠ argc := by simp only [List.length_cons] at hn; omega
    obtain ⟨c, ds, hd⟩ : ∃ d ds, cs = d :: ds := by
      cases cs with
      | nil => exact absurd rfl hcs
      | cons d ds => exact ⟨d, ds, rfl⟩
    have hs' := hs
    rw [hd] at hs'
    have e : getopt m argc argv o st = getopt m argc argv o { st with nextchar := some (q + 1) } := by
      rw [getopt_mid (st := { st with nextchar := some (q + 1) }) hi rfl hs'.tail, getopt_fresh hi hf, if_neg hne]
      simp only [Words.get, hq, Res.ofRead, ok_bind, rd_ok hs.head.1, rd_ok hs'.tail.head.1, if_neg hs'.tail.head.2, ne_eq, not_true,
        if_false]
    have := letters_calls ho hos p { st with nextchar := some (q + 1) } (fuel + 1) (q + 1) rfl hs.tail hi hl
      (by simpa [hd] using ha.tail) (by simp only [List.length_cons] at hn; simp [hd]; omega) hfuel
    unfold Leaves at this ⊢
    unfold getoptAll at this ⊢
    rwa [e]
termination_by (as.map (fun a => a.length + 2)).sum
decreasing_by all_goals simp only [List.map_cons, List.sum_cons, List.length_cons]; omega

theorem letters_calls (ho : CStr m o os) (hos : ∀ c ∈ os, c.toNat < 128) {cs : List Byte} {as rest : List (List Byte)}
    {found : List Found} (h : Letters os false cs as found rest) (st : Opt) (fuel p : Nat) (hp : st.nextchar = some p)
    (hs : CStr m p cs) (hi : st.optind ≠ 0) (hl : st.first = st.last)
    (ha : ArgVector m argv (st.optind + if cs = [] then 0 else 1) as)
    (hn : st.optind + (if cs = [] then 0 else 1) + as.length = argc) (hfuel : found.length < fuel) :
    Leaves m argc argv o fuel st found rest := by
  match h with
  | .done p' =>
    exact parsed_calls ho hos p' st fuel (.inr ⟨p, hp, hs.nil⟩) hi hl (by simpa using ha) (by simpa using hn) hfuel
  | .unknown (c := c) (cs := cs) ht p' =>
    obtain ⟨fuel, rfl⟩ : ∃ f, fuel = f + 1 := ⟨fuel - 1, by omega⟩
    refine leaves_step (by rw [getopt_mid hi hp hs, optShort_unknown ho hs ht]) rfl (by simp [bumped_optarg]) ?_
    refine letters_calls ho hos p' _ fuel (p + 1) rfl hs.tail ?_ ?_ ?_ ?_ ?_
    · simp [bumped_optind, hi]
    · simp [bumped_first, bumped_last, hl]
    · simpa [bumped_place] using ha
    · simpa [bumped_place] using hn
    · simpa using hfuel
  | .flag (c := c) (cs := cs) ht p' =>
    obtain ⟨fuel, rfl⟩ : ∃ f, fuel = f + 1 := ⟨fuel - 1, by omega⟩
    refine leaves_step (by rw [getopt_mid hi hp hs, optShort_flag ho hs ht]) (sc_ascii (hos _ (takes_mem ht)))
      (by simp [bumped_optarg]) ?_
    refine letters_calls ho hos p' _ fuel (p + 1) rfl hs.tail ?_ ?_ ?_ ?_ ?_
    · simp [bumped_optind, hi]
    · simp [bumped_first, bumped_last, hl]
    · simpa [bumped_place] using ha
    · simpa [bumped_place] using hn
    · simpa using hfuel
  | .attached (c := c) (cs := cs) ht hcs p' =>
    obtain ⟨fuel, rfl⟩ : ∃ f, fuel = f + 1 := ⟨fuel - 1, by omega⟩
    refine leaves_step (by rw [getopt_mid hi hp hs, optShort_attached ho hs hcs ht])
      (sc_ascii (hos _ (ht.elim takes_mem takes_mem))) hs.tail ?_
    exact parsed_calls ho hos p' _ fuel (.inl rfl) (by simp) hl (by simpa using ha) (by simpa using hn) (by simpa using hfuel)
  | .without (c := c) ht p' =>
    obtain ⟨fuel, rfl⟩ : ∃ f, fuel = f + 1 := ⟨fuel - 1, by omega⟩
    refine leaves_step (by rw [getopt_mid hi hp hs, optShort_without ho hs ht])
      (sc_ascii (hos _ (takes_mem ht))) trivial ?_
    exact parsed_calls ho hos p' _ fuel (.inl rfl) (by simp) hl (by simpa using ha) (by simpa using hn) (by simpa using hfuel)
  | .separate (c := c) (b := b) (as := as) ht p' =>
    obtain ⟨fuel, rfl⟩ : ∃ f, fuel = f + 1 := ⟨fuel - 1, by omega⟩
    have ha' : ArgVector m argv (st.optind + 1) (b :: as) := by simpa using ha
    obtain ⟨q, hq, hqs⟩ := ha'.head
    have hn' : st.optind + 1 + (as.length + 1) = argc := by simpa using hn
    refine leaves_step (by
        rw [getopt_mid hi hp hs, optShort_separate (st := { st with optarg := none }) ho hs ht (a := q) (by show st.optind + 1 ≠ argc; omega) hq])
      (sc_ascii (hos _ (takes_mem ht))) hqs ?_
    exact parsed_calls ho hos p' _ fuel (.inl rfl) (by simp) hl ha'.tail (by show st.optind + 1 + 1 + as.length = argc; omega)
      (by simpa using hfuel)
  | .missing (c := c) ht =>
    obtain ⟨fuel, rfl⟩ : ∃ f, fuel = f + 1 := ⟨fuel - 1, by omega⟩
    refine leaves_step (by
        rw [getopt_mid hi hp hs, optShort_missing ho hs ht (by simpa using hn)]) rfl trivial ?_
    exact parsed_calls ho hos .done _ fuel (.inl rfl) (by simp) hl (by intro j s hs; cases hs) (by simpa using hn)
      (by simpa using hfuel)
termination_by cs.length + (as.map (fun a => a.length + 2)).sum + 1
decreasing_by all_goals simp only [List.map_cons, List.sum_cons, List.length_cons, List.map_nil, List.sum_nil, List.length_nil]; omega

end

end Mes.C
