import Verif.Proof.Getopt
/-
Lemmas about `getopt_long`, and about the specification of options: there is one parse of each command line.
-/
namespace Mes.C
open Res Spec

theorem takes_cases (os : List Byte) (c : Byte) :
    takes os c = none ∨ takes os c = some .nothing ∨ takes os c = some .argument ∨ takes os c = some .perhaps := by
  cases h : takes os c with
  | none => exact .inl rfl
  | some t => cases t <;> simp

mutual

theorem parsed_total (os : List Byte) (delim : Bool) (as : List (List Byte)) : ∃ found rest, Parsed os delim as found rest := by
  match as with
  | [] => exact ⟨_, _, .done⟩
  | [] :: as => exact ⟨_, _, .operand (.inl (fun cs h => by cases h))⟩
  | (c :: cs) :: as =>
    by_cases hc : c = 45
    · by_cases hcs : cs = []
      · subst hc hcs
        exact ⟨_, _, .operand (.inr rfl)⟩
      · by_cases hd : delim = true ∧ cs = [45]
        · obtain ⟨hd, rfl⟩ := hd
          subst hc
          exact ⟨_, _, .stop hd⟩
        · obtain ⟨found, rest, h⟩ := letters_total os delim cs as
          subst hc
          exact ⟨found, rest, .letters hcs (fun h1 h2 => hd ⟨h1, h2⟩) h⟩
    · exact ⟨_, _, .operand (.inl (fun ds h => hc (by injection h)))⟩
termination_by (as.map (fun a => a.length + 2)).sum
decreasing_by all_goals simp only [List.map_cons, List.sum_cons, List.length_cons]; omega

theorem letters_total (os : List Byte) (delim : Bool) (cs : List Byte) (as : List (List Byte)) :
    ∃ found rest, Letters os delim cs as found rest := by
  match cs with
  | [] =>
    obtain ⟨found, rest, h⟩ := parsed_total os delim as
    exact ⟨found, rest, .done h⟩
  | c :: cs =>
    rcases takes_cases os c with h | h | h | h
    · obtain ⟨found, rest, p⟩ := letters_total os delim cs as
      exact ⟨_, _, .unknown h p⟩
    · obtain ⟨found, rest, p⟩ := letters_total os delim cs as
      exact ⟨_, _, .flag h p⟩
    · by_cases hcs : cs = []
      · subst hcs
        match as with
        | [] => exact ⟨_, _, .missing h⟩
        | b :: as =>
          obtain ⟨found, rest, p⟩ := parsed_total os delim as
          exact ⟨_, _, .separate h p⟩
      · obtain ⟨found, rest, p⟩ := parsed_total os delim as
        exact ⟨_, _, .attached (.inl h) hcs p⟩
    · obtain ⟨found, rest, p⟩ := parsed_total os delim as
      by_cases hcs : cs = []
      · subst hcs
        exact ⟨_, _, .without h p⟩
      · exact ⟨_, _, .attached (.inr h) hcs p⟩
termination_by cs.length + (as.map (fun a => a.length + 2)).sum + 1
decreasing_by all_goals simp only [List.map_cons, List.sum_cons, List.length_cons, List.map_nil, List.sum_nil, List.length_nil]; omega

end

mutual

theorem parsed_unique {os : List Byte} {delim : Bool} {as rest rest' : List (List Byte)} {found found' : List Found}
    (h : Parsed os delim as found rest) (h' : Parsed os delim as found' rest') : found = found' ∧ rest = rest' := by
  match h with
  | .done => cases h'; exact ⟨rfl, rfl⟩
  | .operand ho =>
    cases h' with
    | operand => exact ⟨rfl, rfl⟩
    | stop =>
      rcases ho with ho | ho
      · exact absurd rfl (ho _)
      · cases ho
    | letters hcs _ p =>
      rcases ho with ho | ho
      · exact absurd rfl (ho _)
      · injection ho with _ ho; exact absurd ho hcs
  | .stop hd =>
    cases h' with
    | operand ho =>
      rcases ho with ho | ho
      · exact absurd rfl (ho _)
      · cases ho
    | stop => exact ⟨rfl, rfl⟩
    | letters _ hq _ => exact absurd rfl (hq hd)
  | .letters hcs hq p =>
    cases h' with
    | operand ho =>
      rcases ho with ho | ho
      · exact absurd rfl (ho _)
      · injection ho with _ ho; exact absurd ho hcs
    | stop hd => exact absurd rfl (hq hd)
    | letters _ _ p' => exact letters_unique p p'
termination_by (as.map (fun a => a.length + 2)).sum
decreasing_by all_goals simp only [List.map_cons, List.sum_cons, List.length_cons]; omega

theorem letters_unique {os : List Byte} {delim : Bool} {cs : List Byte} {as rest rest' : List (List Byte)} {found found' : List Found}
    (h : Letters os delim cs as found rest) (h' : Letters os delim cs as found' rest') : found = found' ∧ rest = rest' := by
  match h with
  | .done p =>
    cases h' with
    | done p' => exact parsed_unique p p'
  | .unknown ht p =>
    cases h' with
    | unknown _ p' =>
      obtain ⟨rfl, rfl⟩ := letters_unique p p'
      exact ⟨rfl, rfl⟩
    | flag ht' | without ht' | separate ht' | missing ht' => rw [ht] at ht'; cases ht'
    | attached ht' => rw [ht] at ht'; rcases ht' with ht' | ht' <;> cases ht'
  | .flag ht p =>
    cases h' with
    | flag _ p' =>
      obtain ⟨rfl, rfl⟩ := letters_unique p p'
      exact ⟨rfl, rfl⟩
    | unknown ht' | without ht' | separate ht' | missing ht' => rw [ht] at ht'; cases ht'
    | attached ht' => rw [ht] at ht'; rcases ht' with ht' | ht' <;> cases ht'
  | .attached ht hcs p =>
    cases h' with
    | attached _ _ p' =>
      obtain ⟨rfl, rfl⟩ := parsed_unique p p'
      exact ⟨rfl, rfl⟩
    | unknown ht' => rw [ht'] at ht; rcases ht with ht | ht <;> cases ht
    | flag ht' => rw [ht'] at ht; rcases ht with ht | ht <;> cases ht
    | without | separate | missing => exact absurd rfl hcs
  | .without ht p =>
    cases h' with
    | without _ p' =>
      obtain ⟨rfl, rfl⟩ := parsed_unique p p'
      exact ⟨rfl, rfl⟩
    | attached _ hcs => exact absurd rfl hcs
    | unknown ht' | flag ht' | separate ht' | missing ht' => rw [ht] at ht'; cases ht'
  | .separate ht p =>
    cases h' with
    | separate _ p' =>
      obtain ⟨rfl, rfl⟩ := parsed_unique p p'
      exact ⟨rfl, rfl⟩
    | attached _ hcs => exact absurd rfl hcs
    | unknown ht' | flag ht' | without ht' => rw [ht] at ht'; cases ht'
  | .missing ht =>
    cases h' with
    | missing => exact ⟨rfl, rfl⟩
    | attached _ hcs => exact absurd rfl hcs
    | unknown ht' | flag ht' | without ht' => rw [ht] at ht'; cases ht'
termination_by cs.length + (as.map (fun a => a.length + 2)).sum + 1
decreasing_by all_goals simp only [List.map_cons, List.sum_cons, List.length_cons, List.map_nil, List.sum_nil, List.length_nil]; omega

end

mutual

/-- Without an argument `--` it does not matter if `--` ends the options. -/
theorem parsed_delim {os : List Byte} {as rest : List (List Byte)} {found : List Found} (h : Parsed os true as found rest)
    (hn : [45, 45] ∉ as) : Parsed os false as found rest := by
  match h with
  | .done => exact .done
  | .operand ho => exact .operand ho
  | .stop _ => exact absurd (List.mem_cons_self ..) hn
  | .letters hcs _ p =>
    exact .letters hcs (fun q => by cases q) (letters_delim p (fun q => hn (List.mem_cons_of_mem _ q)))
termination_by (as.map (fun a => a.length + 2)).sum
decreasing_by all_goals simp only [List.map_cons, List.sum_cons, List.length_cons]; omega

theorem letters_delim {os cs : List Byte} {as rest : List (List Byte)} {found : List Found} (h : Letters os true cs as found rest)
    (hn : [45, 45] ∉ as) : Letters os false cs as found rest := by
  match h with
  | .done p => exact .done (parsed_delim p hn)
  | .unknown ht p => exact .unknown ht (letters_delim p hn)
  | .flag ht p => exact .flag ht (letters_delim p hn)
  | .attached ht hcs p => exact .attached ht hcs (parsed_delim p hn)
  | .without ht p => exact .without ht (parsed_delim p hn)
  | .separate ht p => exact .separate ht (parsed_delim p (fun q => hn (List.mem_cons_of_mem _ q)))
  | .missing ht => exact .missing ht
termination_by cs.length + (as.map (fun a => a.length + 2)).sum + 1
decreasing_by all_goals simp only [List.map_cons, List.sum_cons, List.length_cons, List.map_nil, List.sum_nil, List.length_nil]; omega

end

/-! ### Long options -/

variable {m : Mem} {argc : Nat} {argv : Words} {o p q : Nat} {os n nm : List Byte} {st : Opt}

/-- The name of a long option ends at `=` or at the end of the string. -/
theorem nameEnd_ok {tail : List Byte} (htail : tail = [] ∨ ∃ v, tail = 61 :: v) : ∀ (n : List Byte) (p fuel : Nat),
    CStr m p (n ++ tail) → 61 ∉ n → n.length < fuel → nameEnd m fuel p = ok (p + n.length) := by
  intro n
  induction n with
  | nil =>
    intro p fuel h _ hf
    obtain ⟨fuel, rfl⟩ : ∃ f, fuel = f + 1 := ⟨fuel - 1, by omega⟩
    unfold nameEnd
    rcases htail with rfl | ⟨v, rfl⟩
    · rw [rd_ok h.nil, ok_bind, if_neg (by simp)]; rfl
    · rw [rd_ok (CStr.head h).1, ok_bind, if_neg (by simp)]; rfl
  | cons c n ih =>
    intro p fuel h hn hf
    obtain ⟨fuel, rfl⟩ : ∃ f, fuel = f + 1 := ⟨fuel - 1, by simp only [List.length_cons] at hf; omega⟩
    simp only [List.mem_cons, not_or] at hn
    have h' : CStr m p (c :: (n ++ tail)) := h
    unfold nameEnd
    rw [rd_ok h'.head.1, ok_bind, if_pos ⟨h'.head.2, fun e => hn.1 e.symm⟩,
      ih (p + 1) fuel h'.tail hn.2 (by simp only [List.length_cons] at hf; omega)]
    simp only [List.length_cons]
    congr 1
    omega

/-- The comparison of the name of a long option. -/
theorem long_strncmp {tail : List Byte} (h : CStr m p (n ++ tail)) (hq : CStr m q nm) :
    ∃ r, strncmp m q p n.length = ok r ∧ (r = 0 ↔ n <+: nm) := by
  have key : ∃ r, strncmp m q p n.length = ok r ∧ (r = 0 ↔ nm.take n.length = (n ++ tail).take n.length) := by
    cases hn : n.length with
    | zero => exact ⟨0, rfl, by simp⟩
    | succ k =>
      obtain ⟨r, h1, h2, _⟩ := strncmpLoop_ok k nm (n ++ tail) q p hq h
      exact ⟨r, h1, h2⟩
  obtain ⟨r, h1, h2⟩ := key
  refine ⟨r, h1, h2.trans ?_⟩
  rw [List.take_left']
  · rw [List.prefix_iff_eq_take]
    exact eq_comm
  · rfl

/-- The names of the long options. -/
def LongNames (m : Mem) (l : List LongOpt) (names : List (List Byte)) : Prop :=
  l.length = names.length ∧ ∀ (i : Nat) (o : LongOpt) (nm : List Byte), l[i]? = some o → names[i]? = some nm → CStr m o.name nm ∧ nm.length ≤ INT_MAX

theorem LongNames.tail {o : LongOpt} {l : List LongOpt} {names : List (List Byte)} (h : LongNames m (o :: l) (nm :: names)) :
    LongNames m l names :=
  ⟨by simpa using h.1, fun i o' nm' h1 h2 => h.2 (i + 1) o' nm' (by simpa using h1) (by simpa using h2)⟩

theorem LongNames.uncons {o : LongOpt} {l : List LongOpt} {names : List (List Byte)} (h : LongNames m (o :: l) names) :
    ∃ nm names', names = nm :: names' ∧ CStr m o.name nm ∧ nm.length ≤ INT_MAX ∧ LongNames m l names' := by
  match names, h with
  | [], h => simp [LongNames] at h
  | nm :: names', h => exact ⟨nm, names', rfl, (h.2 0 o nm rfl rfl).1, (h.2 0 o nm rfl rfl).2, h.tail⟩

/-- One turn of the search. -/
theorem longFind_step {tail : List Byte} (hp : CStr m p (n ++ tail)) {o : LongOpt} (ho : CStr m o.name nm) (hl : nm.length ≤ INT_MAX)
    (l : List LongOpt) (i : Nat) (found : Option (LongOpt × Nat)) (ambig : Bool) :
    longFind m p n.length (o :: l) i found ambig =
      if nm = n then ok (some (o, i), true, ambig)
      else if n <+: nm then
        match found with
        | none => longFind m p n.length l (i + 1) (some (o, i)) ambig
        | some f => longFind m p n.length l (i + 1) (some f) true
      else longFind m p n.length l (i + 1) found ambig := by
  obtain ⟨r, h1, h2⟩ := long_strncmp hp ho
  conv => lhs; unfold longFind
  rw [h1, ok_bind]
  by_cases hn : n <+: nm
  · rw [if_pos (h2.mpr hn), strlen_ok ho hl, ok_bind]
    by_cases he : nm = n
    · rw [if_pos (by rw [he]), if_pos he]
    · have : ¬ n.length = nm.length := fun q => he (hn.eq_of_length q).symm
      rw [if_neg this, if_neg he, if_pos hn]
      cases found <;> rfl
  · have he : nm ≠ n := fun e => hn (by rw [e]; exact List.prefix_refl _)
    rw [if_neg (fun q => hn (h2.mp q)), if_neg he, if_neg hn]

theorem longFind_exact {tail : List Byte} (hp : CStr m p (n ++ tail)) : ∀ (l : List LongOpt) (names : List (List Byte)) (i k : Nat)
    (found : Option (LongOpt × Nat)) (ambig : Bool), LongNames m l names → names[k]? = some n → (∀ j, j < k → names[j]? ≠ some n) →
    ∃ o a, l[k]? = some o ∧ longFind m p n.length l i found ambig = ok (some (o, i + k), true, a) := by
  intro l
  induction l with
  | nil =>
    intro names i k found ambig h hk _
    have : names = [] := List.eq_nil_of_length_eq_zero h.1.symm
    subst this
    cases hk
  | cons o l ih =>
    intro names i k found ambig h hk hfirst
    obtain ⟨nm, names, rfl, ho, hl, h'⟩ := h.uncons
    rw [longFind_step hp ho hl]
    cases k with
    | zero =>
      have : nm = n := by simpa using hk
      rw [if_pos this]
      exact ⟨o, ambig, rfl, rfl⟩
    | succ k =>
      have hne : nm ≠ n := fun e => hfirst 0 (by omega) (by simp [e])
      rw [if_neg hne]
      have hk' : names[k]? = some n := by simpa using hk
      have hf' : ∀ j, j < k → names[j]? ≠ some n := fun j hj => by simpa using hfirst (j + 1) (by omega)
      split
      · match found with
        | none =>
          obtain ⟨o', a, h1, h2⟩ := ih names (i + 1) k (some (o, i)) ambig h' hk' hf'
          exact ⟨o', a, by simpa using h1, by simpa [Nat.add_assoc, Nat.add_comm 1] using h2⟩
        | some f =>
          obtain ⟨o', a, h1, h2⟩ := ih names (i + 1) k (some f) true h' hk' hf'
          exact ⟨o', a, by simpa using h1, by simpa [Nat.add_assoc, Nat.add_comm 1] using h2⟩
      · obtain ⟨o', a, h1, h2⟩ := ih names (i + 1) k found ambig h' hk' hf'
        exact ⟨o', a, by simpa using h1, by simpa [Nat.add_assoc, Nat.add_comm 1] using h2⟩

theorem longFind_none {tail : List Byte} (hp : CStr m p (n ++ tail)) : ∀ (l : List LongOpt) (names : List (List Byte)) (i : Nat)
    (found : Option (LongOpt × Nat)) (ambig : Bool), LongNames m l names → (∀ nm ∈ names, ¬ n <+: nm) →
    longFind m p n.length l i found ambig = ok (found, false, ambig) := by
  intro l
  induction l with
  | nil => intros; rfl
  | cons o l ih =>
    intro names i found ambig h hno
    obtain ⟨nm, names, rfl, ho, hl, h'⟩ := h.uncons
    have h1 := hno nm (by simp)
    have hne : nm ≠ n := fun e => h1 (by rw [e]; exact List.prefix_refl _)
    rw [longFind_step hp ho hl, if_neg hne, if_neg h1]
    exact ih names (i + 1) found ambig h' (fun x hx => hno x (by simp [hx]))

/-- With an option found, another one makes the name ambiguous. -/
theorem longFind_more {tail : List Byte} (hp : CStr m p (n ++ tail)) : ∀ (l : List LongOpt) (names : List (List Byte)) (i : Nat)
    (f : LongOpt × Nat) (ambig : Bool), LongNames m l names → n ∉ names → (ambig = true ∨ ∃ nm ∈ names, n <+: nm) →
    longFind m p n.length l i (some f) ambig = ok (some f, false, true) := by
  intro l
  induction l with
  | nil =>
    intro names i f ambig h _ hs
    have : names = [] := List.eq_nil_of_length_eq_zero h.1.symm
    subst this
    rcases hs with rfl | ⟨_, hx, _⟩
    · rfl
    · cases hx
  | cons o l ih =>
    intro names i f ambig h hno hs
    obtain ⟨nm, names, rfl, ho, hl, h'⟩ := h.uncons
    simp only [List.mem_cons, not_or] at hno
    rw [longFind_step hp ho hl, if_neg (Ne.symm hno.1)]
    split
    · exact ih names (i + 1) f true h' hno.2 (.inl rfl)
    · next hnp =>
      refine ih names (i + 1) f ambig h' hno.2 ?_
      rcases hs with hs | ⟨x, hx, hx'⟩
      · exact .inl hs
      · rcases List.mem_cons.mp hx with rfl | hx
        · exact absurd hx' hnp
        · exact .inr ⟨x, hx, hx'⟩

/-- The only name that begins with the text. -/
theorem longFind_only {tail : List Byte} (hp : CStr m p (n ++ tail)) : ∀ (l : List LongOpt) (names : List (List Byte)) (i k : Nat),
    LongNames m l names → n ∉ names → names[k]? = some nm → n <+: nm →
    (∀ j (nm' : List Byte), names[j]? = some nm' → n <+: nm' → j = k) →
    ∃ o, l[k]? = some o ∧ longFind m p n.length l i none false = ok (some (o, i + k), false, false) := by
  intro l
  induction l with
  | nil =>
    intro names i k h _ hk _ _
    have : names = [] := List.eq_nil_of_length_eq_zero h.1.symm
    subst this
    cases hk
  | cons o l ih =>
    intro names i k h hno hk hpre honly
    obtain ⟨nm0, names, rfl, ho, hl, h'⟩ := h.uncons
    simp only [List.mem_cons, not_or] at hno
    rw [longFind_step hp ho hl, if_neg (Ne.symm hno.1)]
    cases k with
    | zero =>
      have : nm0 = nm := by simpa using hk
      subst this
      rw [if_pos hpre]
      refine ⟨o, rfl, longFind_none hp l names (i + 1) _ false h' ?_⟩
      intro x hx hx'
      obtain ⟨j, hj⟩ := List.getElem?_of_mem hx
      exact absurd (honly (j + 1) x (by simpa using hj) hx') (by omega)
    | succ k =>
      have hnp : ¬ n <+: nm0 := fun q => absurd (honly 0 nm0 rfl q) (by omega)
      rw [if_neg hnp]
      obtain ⟨o', h1, h2⟩ := ih names (i + 1) k h' hno.2 (by simpa using hk) hpre
        (fun j nm' hj hj' => by have := honly (j + 1) nm' (by simpa using hj) hj'; omega)
      exact ⟨o', by simpa using h1, by simpa [Nat.add_assoc, Nat.add_comm 1] using h2⟩

/-- Two names begin with the text. -/
theorem longFind_two {tail : List Byte} (hp : CStr m p (n ++ tail)) : ∀ (l : List LongOpt) (names : List (List Byte)) (i j k : Nat)
    (a b : List Byte), LongNames m l names → n ∉ names → names[j]? = some a → names[k]? = some b → n <+: a → n <+: b → j < k →
    ∃ f, longFind m p n.length l i none false = ok (some f, false, true) := by
  intro l
  induction l with
  | nil =>
    intro names i j k a b h _ hj _ _ _ _
    have : names = [] := List.eq_nil_of_length_eq_zero h.1.symm
    subst this
    cases hj
  | cons o l ih =>
    intro names i j k a b h hno hj hk ha hb hjk
    obtain ⟨nm0, names, rfl, ho, hl, h'⟩ := h.uncons
    simp only [List.mem_cons, not_or] at hno
    obtain ⟨k, rfl⟩ : ∃ k', k = k' + 1 := ⟨k - 1, by omega⟩
    have hk' : names[k]? = some b := by simpa using hk
    rw [longFind_step hp ho hl, if_neg (Ne.symm hno.1)]
    split
    · exact ⟨_, longFind_more hp l names (i + 1) (o, i) false h' hno.2 (.inr ⟨b, List.mem_of_getElem? hk', hb⟩)⟩
    · next hnp =>
      cases j with
      | zero =>
        have : nm0 = a := by simpa using hj
        exact absurd (by rw [this]; exact ha) hnp
      | succ j => exact ih names (i + 1) j k a b h' hno.2 (by simpa using hj) hk' ha hb (by omega)

/-- A call at an argument that begins with `--`. -/
theorem getoptLong_start {l : List LongOpt} {a : Nat} {t : List Byte} (hi : st.optind ≠ 0) (hf : AtElement m st)
    (hne : st.optind ≠ argc) (ha : argv[st.optind]? = some a) (hs : CStr m a (45 :: 45 :: t)) :
    getoptLong m argc argv o l st =
      optAt m argc argv o (some l) false { st with optarg := none, nextchar := some (a + 2) } (a + 2) := by
  unfold getoptLong getoptInternal
  rcases hf with hf | ⟨p, hp, h0⟩
  · simp [hi, hf, hne, Words.get, ha, Res.ofRead, rd_ok hs.head.1, rd_ok hs.tail.head.1]
  · simp [hi, hp, rd_ok h0, hne, Words.get, ha, Res.ofRead, rd_ok hs.head.1, rd_ok hs.tail.head.1]

/-- The argument `--name` or `--name=value` in the call. -/
theorem optAt_long {l : List LongOpt} {a : Nat} {tail : List Byte} (ha : argv[st.optind]? = some a)
    (hs : CStr m a (45 :: 45 :: (n ++ tail))) (hn : 61 ∉ n) (htail : tail = [] ∨ ∃ v, tail = 61 :: v)
    {found : Option (LongOpt × Nat)} {exact ambig : Bool}
    (hl : longFind m (a + 2) n.length l 0 none false = ok (found, exact, ambig)) (hlen : (n ++ tail).length ≤ INT_MAX) :
    optAt m argc argv o (some l) false st (a + 2) =
      if ambig = true ∧ exact = false then
        ok { code := 63, st := { st with nextchar := some (a + 2 + (n ++ tail).length), optind := st.optind + 1 } }
      else match found with
        | some (p, i) => longFound m argc argv st (a + 2) (a + 2 + n.length) p i
        | none => ok { code := 63, st := { st with nextchar := some (a + 2 + (n ++ tail).length), optind := st.optind + 1 } } := by
  have h2 : CStr m (a + 2) (n ++ tail) := hs.tail.tail
  have h3 := nameEnd_ok htail n (a + 2) (m.length + 1) h2 hn (by have := h2.lt; simp at this; omega)
  obtain ⟨c, hc⟩ : ∃ c, m.rd (a + 2) = ok c := by
    match n ++ tail, h2 with
    | [], h2 => exact ⟨_, rd_ok h2.nil⟩
    | c :: t, h2 => exact ⟨_, rd_ok h2.head.1⟩
  unfold optAt
  simp only [Words.get, ha, Res.ofRead, ok_bind, rd_ok hs.head.1, rd_ok hs.tail.head.1, if_true, true_or, h3, Nat.add_sub_cancel_left,
    hl]
  by_cases hx : ambig = true ∧ exact = false
  · rw [if_pos (by simpa using hx), if_pos hx, strlen_ok h2 hlen, ok_bind]
  · rw [if_neg (by simpa using hx), if_neg hx]
    match found with
    | some (p, i) => rfl
    | none => simp [hc, strlen_ok h2 hlen]

/-- What a long option that is selected gives. -/
theorem longFound_ok {a : Nat} {value : Option (List Byte)} (hs : CStr m (a + 2) (n ++ valueText value))
    (hlen : (n ++ valueText value).length ≤ INT_MAX) (hi : st.optind < argc) (ho : st.optarg = none) (opt : LongOpt) (i : Nat)
    {next : Option (List Byte)} (hnext : if st.optind + 1 < argc then
      ∃ b s, argv[st.optind + 1]? = some b ∧ CStr m b s ∧ next = some s else next = none) :
    ∃ r, longFound m argc argv st (a + 2) (a + 2 + n.length) opt i = ok r ∧ AtElement m r.st ∧ r.st.first = st.first ∧
      r.st.last = st.last ∧
      match longArg opt.hasArg value next with
      | none => r.code = 63 ∧ r.st.optind = st.optind + 1 ∧ r.longind = none ∧ r.flag = none
      | some (arg, k) => r.st.optind = st.optind + k ∧ r.longind = some i ∧
        (match r.st.optarg, arg with
          | none, none => True
          | some x, some s => CStr m x s
          | _, _ => False) ∧
        (match opt.flag with
          | none => r.code = opt.val ∧ r.flag = none
          | some f => r.code = 0 ∧ r.flag = some (f, opt.val)) := by
  have hend : m[a + 2 + (n ++ valueText value).length]? = some 0 := hs.rd_end
  have hsuf := hs.suffix
  unfold longFound
  rw [strlen_ok hs hlen]
  cases value with
  | none =>
    have hsuf : CStr m (a + 2 + n.length) [] := hsuf
    simp only [rd_ok hsuf.nil, ok_bind, ne_eq, not_true, if_false]
    by_cases h1 : opt.hasArg = 1
    · by_cases h2 : st.optind + 1 < argc
      · rw [if_pos h2] at hnext
        obtain ⟨b, s, hb, hbs, rfl⟩ := hnext
        simp only [h1, if_true, h2, Words.get, hb, Res.ofRead, ok_bind]
        cases hf : opt.flag with
        | none => exact ⟨_, rfl, .inr ⟨_, rfl, hend⟩, rfl, rfl, rfl, rfl, hbs, rfl, rfl⟩
        | some f => exact ⟨_, rfl, .inr ⟨_, rfl, hend⟩, rfl, rfl, rfl, rfl, hbs, rfl, rfl⟩
      · rw [if_neg h2] at hnext
        subst hnext
        simp only [h1, if_true, h2, if_false, ok_bind]
        exact ⟨_, rfl, .inr ⟨_, rfl, hend⟩, rfl, rfl, rfl, rfl, rfl, rfl⟩
    · have e : longArg opt.hasArg none next = some (none, 1) := by
        unfold longArg
        split
        · rfl
        · simp [h1]
      simp only [h1, if_false, ok_bind, e]
      cases hf : opt.flag with
      | none => exact ⟨_, rfl, .inr ⟨_, rfl, hend⟩, rfl, rfl, rfl, rfl, by simp [ho], rfl, rfl⟩
      | some f => exact ⟨_, rfl, .inr ⟨_, rfl, hend⟩, rfl, rfl, rfl, rfl, by simp [ho], rfl, rfl⟩
  | some v =>
    have hsuf : CStr m (a + 2 + n.length) (61 :: v) := hsuf
    simp only [rd_ok hsuf.head.1, ok_bind, ne_eq, if_pos hsuf.head.2]
    by_cases h0 : opt.hasArg = 0
    · simp only [h0, not_true, if_false, ok_bind]
      exact ⟨_, rfl, .inr ⟨_, rfl, hend⟩, rfl, rfl, rfl, rfl, rfl, rfl⟩
    · have e : longArg opt.hasArg (some v) next = some (some v, 1) := by
        unfold longArg
        rw [if_neg h0]
      simp only [h0, not_false_eq_true, if_true, ok_bind, e]
      cases hf : opt.flag with
      | none => exact ⟨_, rfl, .inr ⟨_, rfl, hend⟩, rfl, rfl, rfl, rfl, hsuf.tail, rfl, rfl⟩
      | some f => exact ⟨_, rfl, .inr ⟨_, rfl, hend⟩, rfl, rfl, rfl, rfl, hsuf.tail, rfl, rfl⟩

/-- The search selects as the specification. -/
theorem longFind_selects {tail : List Byte} (hp : CStr m p (n ++ tail)) {l : List LongOpt} {names : List (List Byte)}
    (h : LongNames m l names) :
    (∃ i opt a e, Selects names n i ∧ l[i]? = some opt ∧ longFind m p n.length l 0 none false = ok (some (opt, i), e, a) ∧
      ¬ (a = true ∧ e = false)) ∨
    ((∀ i, ¬ Selects names n i) ∧ ∃ f a, longFind m p n.length l 0 none false = ok (f, false, a) ∧ (a = true ∨ f = none)) := by
  by_cases hex : n ∈ names
  · obtain ⟨k, hk, hfirst⟩ : ∃ k : Nat, names[k]? = some n ∧ ∀ j : Nat, j < k → names[j]? ≠ some n := by
      clear h
      induction names with
      | nil => cases hex
      | cons b names ih =>
        by_cases hb : b = n
        · exact ⟨0, by simp [hb], fun j hj => absurd hj (by omega)⟩
        · obtain ⟨k, h1, h2⟩ := ih ((List.mem_cons.mp hex).resolve_left (Ne.symm hb))
          refine ⟨k + 1, by simpa using h1, fun j hj => ?_⟩
          cases j with
          | zero => simpa using hb
          | succ j => simpa using h2 j (by omega)
    obtain ⟨opt, a, h1, h2⟩ := longFind_exact hp l names 0 k none false h hk hfirst
    exact .inl ⟨k, opt, a, true, .exact hk hfirst, h1, by simpa using h2, by simp⟩
  · by_cases hpre : ∃ j : Nat, ∃ x : List Byte, names[j]? = some x ∧ n <+: x
    · obtain ⟨j, x, hj, hx⟩ := hpre
      by_cases hmore : ∃ k : Nat, ∃ y : List Byte, names[k]? = some y ∧ n <+: y ∧ k ≠ j
      · obtain ⟨k, y, hk, hy, hkj⟩ := hmore
        have : ∃ f, longFind m p n.length l 0 none false = ok (some f, false, true) := by
          by_cases hlt : j < k
          · exact longFind_two hp l names 0 j k x y h hex hj hk hx hy hlt
          · exact longFind_two hp l names 0 k j y x h hex hk hj hy hx (by omega)
        obtain ⟨f, hf⟩ := this
        refine .inr ⟨fun i hi => ?_, some f, true, hf, .inl rfl⟩
        cases hi with
        | exact hi => exact hex (List.mem_of_getElem? hi)
        | only hi _ _ ho => exact hkj ((ho k y hk hy).trans (ho j x hj hx).symm)
      · have honly : ∀ (k : Nat) (y : List Byte), names[k]? = some y → n <+: y → k = j := fun k y hk hy =>
          Classical.byContradiction fun q => hmore ⟨k, y, hk, hy, q⟩
        obtain ⟨opt, h1, h2⟩ := longFind_only hp l names 0 j h hex hj hx honly
        exact .inl ⟨j, opt, false, false, .only hj hx hex honly, h1, by simpa using h2, by simp⟩
    · refine .inr ⟨fun i hi => ?_, none, false, longFind_none hp l names 0 none false h ?_, .inr rfl⟩
      · cases hi with
        | exact hi => exact hex (List.mem_of_getElem? hi)
        | only hi hx _ _ => exact hpre ⟨i, _, hi, hx⟩
      · intro x hx hx'
        obtain ⟨j, hj⟩ := List.getElem?_of_mem hx
        exact hpre ⟨j, x, hj, hx'⟩

theorem optAt_short {l : List LongOpt} {a : Nat} {s : List Byte} (ha : argv[st.optind]? = some a) (hs : CStr m a s)
    (hn : ∀ t, s ≠ 45 :: 45 :: t) : optAt m argc argv o (some l) false st p = optShort m argc argv o st p := by
  unfold optAt
  simp only [Words.get, ha, Res.ofRead, ok_bind]
  match s, hs, hn with
  | [], hs, _ => rw [rd_ok hs.nil, ok_bind, if_neg (by decide)]
  | c :: s, hs, hn =>
    rw [rd_ok hs.head.1, ok_bind]
    by_cases hc : c = 45
    · rw [if_pos hc]
      match s, hs, hn with
      | [], hs, _ => rw [rd_ok hs.tail.nil, ok_bind, if_neg (by simp)]
      | d :: s, hs, hn =>
        have : d ≠ 45 := fun e => hn s (by rw [hc, e])
        rw [rd_ok hs.tail.head.1, ok_bind, if_neg (by simpa using this)]
    · rw [if_neg hc]

/-- At an argument that does not begin with `--`, or inside one, `getopt_long` does what `getopt` does. -/
theorem getoptLong_short {l : List LongOpt} (hi : st.optind ≠ 0)
    (hel : st.optind ≠ argc → ∃ a s, argv[st.optind]? = some a ∧ CStr m a s ∧ ∀ t, s ≠ 45 :: 45 :: t)
    (hp : AtElement m st ∨ st.optind ≠ argc) :
    getoptLong m argc argv o l st = getopt m argc argv o st := by
  have inner : ∀ (st' : Opt) (p : Nat), st'.optind = st.optind → st.optind ≠ argc →
      optAt m argc argv o (some l) false st' p = optAt m argc argv o none false st' p := by
    intro st' p h1 h2
    obtain ⟨a, s, ha, hs, hn⟩ := hel h2
    rw [optAt_short (by rw [h1]; exact ha) hs hn]
    rfl
  have fresh : (if st.optind = argc then
        (ok { code := -1,
              st := if st.first ≠ st.last then { st with optarg := none, optind := st.first } else { st with optarg := none } } :
          Res OptResult)
      else (do
        let a ← argv.get st.optind
        let c0 ← m.rd a
        if c0 ≠ 45 then ok { code := -1, st := { st with optarg := none } }
        else do
          let c1 ← m.rd (a + 1)
          if c1 = 0 then ok { code := -1, st := { st with optarg := none } }
          else
            let p := a + 1 + (if (some l).isSome ∧ c1 = 45 then 1 else 0)
            optAt m argc argv o (some l) false { st with optarg := none, nextchar := some p } p)) =
      (if st.optind = argc then
        (ok { code := -1,
              st := if st.first ≠ st.last then { st with optarg := none, optind := st.first } else { st with optarg := none } } :
          Res OptResult)
      else (do
        let a ← argv.get st.optind
        let c0 ← m.rd a
        if c0 ≠ 45 then ok { code := -1, st := { st with optarg := none } }
        else do
          let c1 ← m.rd (a + 1)
          if c1 = 0 then ok { code := -1, st := { st with optarg := none } }
          else
            let p := a + 1 + (if (none : Option (List LongOpt)).isSome ∧ c1 = 45 then 1 else 0)
            optAt m argc argv o none false { st with optarg := none, nextchar := some p } p)) := by
    by_cases h2 : st.optind = argc
    · rw [if_pos h2, if_pos h2]
    · rw [if_neg h2, if_neg h2]
      obtain ⟨a, s, ha, hs, hn⟩ := hel h2
      simp only [Words.get, ha, Res.ofRead, ok_bind]
      match s, hs, hn with
      | [], hs, _ => rw [rd_ok hs.nil, ok_bind, if_pos (by decide), ok_bind, if_pos (by decide)]
      | c :: s, hs, hn =>
        simp only [rd_ok hs.head.1, ok_bind]
        by_cases hc : c = 45
        · subst hc
          simp only [ne_eq, not_true, if_false]
          match s, hs, hn with
          | [], hs, _ => simp only [rd_ok hs.tail.nil, ok_bind, if_true]
          | d :: s, hs, hn =>
            have hd : d ≠ 45 := fun e => hn s (by rw [e])
            simp only [rd_ok hs.tail.head.1, ok_bind, if_neg hs.tail.head.2]
            simp only [hd, and_false, if_false]
            exact inner _ _ rfl h2
        · simp only [ne_eq, hc, not_false_eq_true, if_true]
  unfold getoptLong getopt getoptInternal
  simp only [if_neg hi]
  cases hnc : st.nextchar with
  | none =>
    simp only [ok_bind]
    simpa only [hnc] using fresh
  | some p =>
    simp only
    cases hr : m.rd p with
    | ok c =>
      simp only [ok_bind]
      by_cases h0 : c = 0
      · simp only [if_pos h0, ok_bind]
        simpa only [hnc] using fresh
      · simp only [if_neg h0, ok_bind]
        have h2 : st.optind ≠ argc := by
          rcases hp with hp | hp
          · rcases hp with hp | ⟨q, hq, hq0⟩
            · rw [hnc] at hp; cases hp
            · rw [hnc] at hq
              cases hq
              rw [rd_ok hq0] at hr
              cases hr
              exact absurd rfl h0
          · exact hp
        exact inner _ _ rfl h2
    | _ => rfl

end Mes.C
