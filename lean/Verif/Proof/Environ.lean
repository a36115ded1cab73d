import Verif.Spec.Environ
import Verif.Proof.Blocks
/-
Lemmas about the environment functions.
-/
namespace Mes.C
open Res Spec

variable {s s' : Proc} {bs : List Block} {m m' : Mem} {w : Words} {es : List (List Byte)} {k e : List Byte} {a b : Nat}

/-- Pointers and the texts they point to. -/
def Ents (m : Mem) (b : Nat) : List Nat → List (List Byte) → Prop
  | [], [] => True
  | p :: ps, e :: es => (p ≠ 0 ∧ CStr m p e ∧ p + e.length < b) ∧ Ents m b ps es
  | _, _ => False

theorem ents_iff {ps : List Nat} : Ents m b ps es ↔ ps.length = es.length ∧
    ∀ (i p : Nat) (e : List UInt8), ps[i]? = some p → es[i]? = some e → p ≠ 0 ∧ CStr m p e ∧ p + e.length < b := by
  induction ps generalizing es with
  | nil => cases es <;> simp [Ents]
  | cons p ps ih =>
    cases es with
    | nil => simp [Ents]
    | cons e es =>
      simp only [Ents, ih, List.length_cons]
      constructor
      · rintro ⟨h1, h2, h3⟩
        refine ⟨by omega, fun i q f hq hf => ?_⟩
        cases i with
        | zero => simp only [List.getElem?_cons_zero, Option.some.injEq] at hq hf; subst hq hf; exact h1
        | succ i => exact h3 i q f (by simpa using hq) (by simpa using hf)
      · rintro ⟨h1, h2⟩
        exact ⟨h2 0 p e rfl rfl, by omega, fun i q f hq hf => h2 (i + 1) q f (by simpa using hq) (by simpa using hf)⟩

theorem environ_iff : Environ m w es b ↔ ∃ ps rest, w = ps ++ 0 :: rest ∧ Ents m b ps es := by
  unfold Environ
  constructor
  · rintro ⟨ps, rest, h1, h2⟩; exact ⟨ps, rest, h1, ents_iff.2 h2⟩
  · rintro ⟨ps, rest, h1, h2⟩; exact ⟨ps, rest, h1, ents_iff.1 h2⟩

theorem Ents.length {ps : List Nat} (h : Ents m b ps es) : ps.length = es.length := (ents_iff.1 h).1

theorem _root_.Mes.Spec.CStr.frame (h : CStr m a k) (hs : ∀ i, i ≤ a + k.length → m'[i]? = m[i]?) : CStr m' a k := by
  refine ⟨fun i hi => ?_, h.2⟩
  rw [hs _ (by simp at hi; omega), h.1 i hi]

theorem Ents.frame {b' : Nat} {ps : List Nat} (h : Ents m b ps es) (hb : b ≤ b') (hs : ∀ i, i < b → m'[i]? = m[i]?) : Ents m' b' ps es := by
  rw [ents_iff] at h ⊢
  refine ⟨h.1, fun i p e hp he => ?_⟩
  obtain ⟨h1, h2, h3⟩ := h.2 i p e hp he
  exact ⟨h1, h2.frame fun j hj => hs j (by omega), by omega⟩

/-- Does the entry belong to the name? -/
def matches' (k e : List Byte) : Bool := (k ++ [61]).isPrefixOf e

theorem entryTest_ok {p : Nat} (hk : CStr m a k) (he : CStr m p e) : entryTest m a p k.length = ok (matches' k e) := by
  have hcmp : ∃ r, strncmp m a p k.length = ok r ∧ (r = 0 ↔ k.take k.length = e.take k.length) := by
    unfold strncmp
    cases h : k.length with
    | zero => exact ⟨0, rfl, by simp⟩
    | succ n =>
      obtain ⟨r, h1, h2, _⟩ := strncmpLoop_ok n k e a p hk he
      exact ⟨r, h1, h2⟩
  obtain ⟨r, h1, h2⟩ := hcmp
  rw [List.take_length] at h2
  simp only [entryTest, h1, ok_bind]
  by_cases hr : r = 0
  · rw [if_pos hr]
    have h3 := h2.1 hr
    have hle : k.length ≤ e.length := by
      have := congrArg List.length h3; simp at this; omega
    have hrd : m[p + k.length]? = (e ++ [0])[k.length]? := he.1 _ (by simp; omega)
    obtain ⟨t, rfl⟩ : ∃ t, e = k ++ t := ⟨e.drop k.length, by
      have := (List.take_append_drop k.length e).symm
      rwa [← h3] at this⟩
    cases t with
    | nil =>
      simp only [List.append_nil, List.getElem?_append_right (Nat.le_refl _), Nat.sub_self, List.getElem?_cons_zero] at hrd
      rw [rd_ok hrd, ok_bind]
      unfold matches'
      congr 1
      rw [List.append_nil]
      cases h : (k ++ [61]).isPrefixOf k with
      | false => rfl
      | true =>
        have := (List.isPrefixOf_iff_prefix.1 h).length_le
        simp at this
        omega
    | cons c t =>
      simp only [List.append_assoc, List.getElem?_append_right (Nat.le_refl _), Nat.sub_self, List.cons_append, List.getElem?_cons_zero] at hrd
      rw [rd_ok hrd, ok_bind]
      unfold matches'
      congr 1
      rw [Bool.eq_iff_iff, List.isPrefixOf_iff_prefix, List.prefix_append_right_inj]
      simp [List.cons_prefix_cons, eq_comm]
  · rw [if_neg hr]
    unfold matches'
    congr 1
    cases h : (k ++ [61]).isPrefixOf e with
    | false => rfl
    | true =>
      obtain ⟨t, rfl⟩ := List.isPrefixOf_iff_prefix.1 h
      exact absurd (h2.2 (by simp)) hr

theorem get_at (pre post : List Nat) (x : Nat) : Words.get (pre ++ x :: post) pre.length = ok x := by
  simp [Words.get]

theorem put_at (pre post : List Nat) (x y : Nat) : Words.put (pre ++ x :: post) pre.length y = ok (pre ++ y :: post) := by
  unfold Words.put
  rw [if_pos (by simp), List.set_append_right _ _ (Nat.le_refl _)]
  simp

theorem envFind_ok {rest : List Nat} (hk : CStr m a k) : ∀ (ps : List Nat) (es : List (List Byte)) (pre : List Nat) (fuel : Nat),
    Ents m b ps es → ps.length < fuel →
    envFind m (pre ++ (ps ++ 0 :: rest)) a k.length fuel pre.length = ok (pre.length + es.findIdx (matches' k))
  | [], [], pre, fuel + 1, _, _ => by
    simp only [envFind, List.nil_append, get_at, ok_bind, if_pos, List.findIdx_nil, Nat.add_zero]
  | p :: ps, e :: es, pre, fuel + 1, h, hf => by
    simp only [envFind, List.cons_append, get_at, ok_bind, if_neg h.1.1, entryTest_ok hk h.1.2.1, List.findIdx_cons]
    cases matches' k e with
    | true => simp
    | false =>
      have := envFind_ok (rest := rest) hk ps es (pre ++ [p]) fuel h.2 (by simpa using hf)
      simp only [List.length_append, List.length_cons, List.length_nil, Nat.zero_add, List.append_assoc, List.cons_append, List.nil_append] at this
      simp only [Bool.false_eq_true, if_false, cond_false, this]
      congr 1
      omega
  | [], _ :: _, _, _, h, _ => nomatch h
  | _ :: _, [], _, _, h, _ => nomatch h

theorem entryValue_some (h : matches' k e = true) : ∃ v, e = k ++ 61 :: v ∧ entryValue k e = some v := by
  obtain ⟨t, rfl⟩ := List.isPrefixOf_iff_prefix.1 h
  refine ⟨t, by simp, ?_⟩
  unfold matches' at h
  unfold entryValue
  rw [if_pos h]
  simp

theorem entryValue_none (h : matches' k e = false) : entryValue k e = none := by
  unfold matches' at h
  unfold entryValue
  rw [if_neg (by simp [h])]

/-- Where the entry of the name is. -/
theorem find_cases (k : List Byte) : ∀ es : List (List Byte), (∀ e ∈ es, matches' k e = false) ∧ es.findIdx (matches' k) = es.length ∧ envValue k es = none ∨
    ∃ es1 v es2, es = es1 ++ (k ++ 61 :: v) :: es2 ∧ (∀ e ∈ es1, matches' k e = false) ∧ es.findIdx (matches' k) = es1.length ∧ envValue k es = some v
  | [] => .inl ⟨by simp, rfl, rfl⟩
  | e :: es => by
    cases h : matches' k e with
    | true =>
      obtain ⟨v, rfl, h2⟩ := entryValue_some h
      exact .inr ⟨[], v, es, rfl, by simp, by simp [List.findIdx_cons, h], by simp [envValue, h2]⟩
    | false =>
      rcases find_cases k es with ⟨h1, h2, h3⟩ | ⟨es1, v, es2, rfl, h1, h2, h3⟩
      · exact .inl ⟨by simpa [h] using h1, by simp [List.findIdx_cons, h, h2], by rw [envValue, List.findSome?_cons, entryValue_none h]; exact h3⟩
      · exact .inr ⟨e :: es1, v, es2, rfl, by simpa [h] using h1, by rw [List.findIdx_cons, h, cond_false, h2]; rfl,
          by rw [envValue, List.findSome?_cons, entryValue_none h]; exact h3⟩

theorem Ents.split {ps : List Nat} {es1 es2 : List (List Byte)} (h : Ents m b ps (es1 ++ e :: es2)) :
    ∃ ps1 p ps2, ps = ps1 ++ p :: ps2 ∧ ps1.length = es1.length ∧ Ents m b ps1 es1 ∧ (p ≠ 0 ∧ CStr m p e ∧ p + e.length < b) ∧ Ents m b ps2 es2 := by
  induction es1 generalizing ps with
  | nil =>
    cases ps with
    | nil => nomatch h
    | cons p ps => exact ⟨[], p, ps, rfl, rfl, trivial, h.1, h.2⟩
  | cons f es1 ih =>
    cases ps with
    | nil => nomatch h
    | cons q ps =>
      obtain ⟨ps1, p, ps2, rfl, h1, h2, h3, h4⟩ := ih h.2
      exact ⟨q :: ps1, p, ps2, rfl, by simp [h1], ⟨h.1, h2⟩, h3, h4⟩

theorem Ents.append {ps1 ps2 : List Nat} {es1 es2 : List (List Byte)} (h1 : Ents m b ps1 es1) (h2 : Ents m b ps2 es2) : Ents m b (ps1 ++ ps2) (es1 ++ es2) := by
  induction ps1 generalizing es1 with
  | nil =>
    cases es1 with
    | nil => exact h2
    | cons _ _ => nomatch h1
  | cons p ps1 ih =>
    cases es1 with
    | nil => nomatch h1
    | cons e es1 => exact ⟨h1.1, ih h1.2⟩

theorem _root_.Mes.Spec.CStr.suffix {p : Nat} {u t : List Byte} (h : CStr m p (u ++ t)) : CStr m (p + u.length) t := by
  refine ⟨fun i hi => ?_, fun x hx => h.2 x (by simp [hx])⟩
  have := h.1 (u.length + i) (by simp at hi ⊢; omega)
  rw [← Nat.add_assoc] at this
  rw [this, List.append_assoc, List.getElem?_append_right (by omega)]
  congr 1
  omega

theorem getenv_ok (he : Environ m w es b) (hk : CStr m a k) (hl : k.length ≤ INT_MAX) :
    match envValue k es with
    | none => getenv m w a = ok none
    | some v => ∃ q, getenv m w a = ok (some q) ∧ CStr m q v := by
  obtain ⟨ps, rest, rfl, h⟩ := environ_iff.1 he
  have hf := envFind_ok (rest := rest) hk ps es [] ((ps ++ 0 :: rest).length + 1) h (by simp; omega)
  simp only [List.nil_append, List.length_nil, Nat.zero_add] at hf
  unfold getenv
  rw [strlen_ok hk hl]
  simp only [ok_bind, hf]
  rcases find_cases k es with ⟨-, h1, h2⟩ | ⟨es1, v, es2, rfl, -, h1, h2⟩
  · rw [h1, h2, ← h.length]
    simp only [get_at, ok_bind, if_pos]
  · rw [h1, h2]
    obtain ⟨ps1, p, ps2, rfl, h3, -, h5, -⟩ := h.split
    rw [← h3, List.append_assoc, List.cons_append, get_at]
    simp only [ok_bind, if_neg h5.1]
    refine ⟨_, rfl, ?_⟩
    have : k ++ 61 :: v = (k ++ [61]) ++ v := by simp
    rw [this] at h5
    have h6 := h5.2.1.suffix
    rwa [List.length_append, List.length_singleton, ← Nat.add_assoc] at h6

/-- The entries with a variable set. -/
def setEntry (k v : List Byte) : List (List Byte) → List (List Byte)
  | [] => [k ++ 61 :: v]
  | e :: es => if matches' k e then (k ++ 61 :: v) :: es else e :: setEntry k v es

theorem setEntry_none {v : List Byte} (h : ∀ e ∈ es, matches' k e = false) : setEntry k v es = es ++ [k ++ 61 :: v] := by
  induction es with
  | nil => rfl
  | cons e es ih => simp only [setEntry, h e (by simp), Bool.false_eq_true, if_false, ih fun e he => h e (by simp [he]), List.cons_append]

theorem matches_self (k v : List Byte) : matches' k (k ++ 61 :: v) = true :=
  List.isPrefixOf_iff_prefix.2 ⟨v, by simp⟩

theorem setEntry_some {u v : List Byte} {es1 es2 : List (List Byte)} (h : ∀ e ∈ es1, matches' k e = false) :
    setEntry k v (es1 ++ (k ++ 61 :: u) :: es2) = es1 ++ (k ++ 61 :: v) :: es2 := by
  induction es1 with
  | nil => simp only [List.nil_append, setEntry, matches_self, if_true]
  | cons e es ih => simp only [List.cons_append, setEntry, h e (by simp), Bool.false_eq_true, if_false, ih fun e he => h e (by simp [he])]

theorem lt_pageEnd {page n : Nat} (h : 0 < page) (hd : ¬ page ∣ n) : n < pageEnd page n := by
  have h1 := pageEnd_le h n
  rcases Nat.lt_or_eq_of_le h1 with h2 | h2
  · exact h2
  · exact absurd ⟨_, h2.trans (Nat.mul_comm _ _)⟩ hd

theorem strcpy_ok {src dest : Nat} (h : CStr m src k) (hd : dest + k.length < m.length) (hov : src + k.length < dest) :
    ∃ m', strcpy m dest src = ok (m', dest) ∧ Patched m m' dest (k ++ [0]) := by
  obtain ⟨m', h1, h2⟩ := strcpyLoop_ok k m (m.length + 1) dest src h (by have := h.lt; omega) hd (.inr hov)
  exact ⟨m', by simp [strcpy, h1], h2⟩

/-- The text is written into the new block. -/
theorem write_entry {name value p : Nat} {v : List Byte} (hk : CStr m name k) (hv : CStr m value v) (hn : name + k.length < p) (hval : value + v.length < p)
    (hl : v.length ≤ INT_MAX) (hr : p + (k.length + v.length + 2) < m.length) :
    ∃ m1 m2 m3 m4 m5, strcpy m p name = ok (m1, p) ∧ m1.wr (p + k.length) 61 = ok m2 ∧ m2.wr (p + k.length + 1) 0 = ok m3 ∧
      strcpy m3 (p + k.length + 1) value = ok (m4, p + k.length + 1) ∧ strlen m4 value = ok v.length ∧
      m4.wr (p + (k.length + v.length + 2)) 0 = ok m5 ∧ m5.length = m.length ∧ At m5 p (k ++ 61 :: v ++ [0]) ∧
      (∀ i, i < p → m5[i]? = m[i]?) := by
  obtain ⟨m1, e1, p1⟩ := strcpy_ok hk (dest := p) (by omega) hn
  have l1 := p1.len
  have l2 : (m1.set (p + k.length) 61).length = m.length := by simp [l1]
  have l3 : ((m1.set (p + k.length) 61).set (p + k.length + 1) 0).length = m.length := by simp [l1]
  have below3 : ∀ i, i < p → ((m1.set (p + k.length) 61).set (p + k.length + 1) 0)[i]? = m[i]? := by
    intro i hi
    rw [getElem?_set' _ _ _ _ (by omega), if_neg (by omega), getElem?_set' _ _ _ _ (by omega), if_neg (by omega), p1.outside i (.inl hi)]
  obtain ⟨m4, e4, p4⟩ := strcpy_ok (hv.frame (m' := (m1.set (p + k.length) 61).set (p + k.length + 1) 0) fun i hi => below3 i (by omega)) (dest := p + k.length + 1) (by omega) (by omega)
  have below4 : ∀ i, i < p → m4[i]? = m[i]? := fun i hi => by rw [p4.outside i (by omega), below3 i hi]
  have l4 : m4.length = m.length := by rw [p4.len, l3]
  refine ⟨m1, _, _, m4, m4.set (p + (k.length + v.length + 2)) 0, e1, wr_ok _ (by omega), wr_ok _ (by omega), e4,
    strlen_ok (hv.frame fun i hi => below4 i (by omega)) hl, wr_ok _ (by omega), by simp [l4], fun i hi => ?_, fun i hi => ?_⟩
  · simp only [List.length_append, List.length_cons, List.length_nil] at hi
    rw [getElem?_set' _ _ _ _ (by omega), if_neg (by omega)]
    by_cases h1 : i < k.length
    · rw [p4.outside _ (by omega), getElem?_set' _ _ _ _ (by omega), if_neg (by omega), getElem?_set' _ _ _ _ (by omega), if_neg (by omega), p1.inside i (by simp; omega),
        List.append_assoc, List.getElem?_append_left h1, List.getElem?_append_left h1]
    · by_cases h2 : i = k.length
      · subst h2
        rw [p4.outside _ (by omega), getElem?_set' _ _ _ _ (by omega), if_neg (by omega), getElem?_set' _ _ _ _ (by omega), if_pos rfl]
        simp
      · have h3 := p4.inside (i - (k.length + 1)) (by simp; omega)
        rw [show p + k.length + 1 + (i - (k.length + 1)) = p + i by omega] at h3
        rw [h3, show k ++ 61 :: v ++ [0] = (k ++ [61]) ++ (v ++ [0]) by simp, List.getElem?_append_right (l₁ := k ++ [61]) (by simp; omega)]
        simp
  · rw [getElem?_set' _ _ _ _ (by omega), if_neg (by omega), below4 i hi]

theorem _root_.Mes.Spec.Good.next_le (hg : Good s bs) : s.next ≤ s.top := by
  have := hg.start
  unfold Proc.next
  rcases hg.cur with ⟨h, -⟩ | ⟨h, h', -⟩
  · rw [if_pos h]; exact Nat.le_refl _
  · rw [if_neg (by omega)]; exact h'

theorem after_below (hg : Good s bs) {p n : Nat} (hp : s.next ≤ p) : ∀ i, i < s.next → (s.after p n).mem[i]? = s.mem[i]? := by
  intro i hi
  have h1 := hg.next_le
  have h2 := hg.mem_le
  have h3 := pageEnd_le hg.pages.1 (p + n)
  unfold Proc.after resize
  simp only
  rw [List.getElem?_append_left (by simp; omega), List.getElem?_take, if_pos (by omega)]

theorem setenv_ok {name value : Nat} {v : List Byte} {o : Int} (hg : Good s bs) (he : Environ s.mem w es s.next) (hk : CStr s.mem name k)
    (hv : CStr s.mem value v) (hn : name + k.length < s.next) (hval : value + v.length < s.next) (hkl : k.length ≤ INT_MAX)
    (hvl : v.length ≤ INT_MAX) (hr : s.next + (k.length + v.length + 2) + 7 ≤ s.limit) (hw : es.length + 1 < w.length)
    (hpage : ∀ p, s.next ≤ p → p ≤ s.next + 7 → 8 ∣ p → ¬ s.page ∣ p + (k.length + v.length + 2)) :
    ∃ p s' w', setenv s w name value o = ok (s', w', 0) ∧ Good s' ((p, k ++ 61 :: v ++ [0]) :: bs) ∧ Environ s'.mem w' (setEntry k v es) s'.next ∧
      w'.length = w.length ∧ (∀ i, i < s.next → s'.mem[i]? = s.mem[i]?) ∧ s.next ≤ s'.next ∧ s'.next ≤ s.next + (k.length + v.length + 2) + 7 ∧
      s'.limit = s.limit ∧ s'.page = s.page := by
  obtain ⟨p, hp1, hp2, hp3, em⟩ := malloc_eq hg hr
  obtain ⟨p', s1, c, em', hc, hg1, -, hp0, hnx, hlim, -, hcur⟩ := malloc_ok hg hr
  rw [em] at em'
  cases em'
  have hbel := after_below hg (n := k.length + v.length + 2) hp1
  have hlen : (s.after p (k.length + v.length + 2)).mem.length = pageEnd s.page (p + (k.length + v.length + 2)) := resize_length _ _
  have hpe := lt_pageEnd hg.pages.1 (hpage p hp1 hp2 hp3)
  obtain ⟨m1, m2, m3, m4, m5, e1, e2, e3, e4, e5, e6, e7, e8, e9⟩ := write_entry (p := p) (hk.frame fun i hi => hbel i (by omega)) (hv.frame fun i hi => hbel i (by omega))
    (by omega) (by omega) hvl (by omega)
  obtain ⟨ps, rest, rfl, h⟩ := environ_iff.1 he
  have hf := envFind_ok (rest := rest) hk ps es [] ((ps ++ 0 :: rest).length + 1) h (by simp; omega)
  simp only [List.nil_append, List.length_nil, Nat.zero_add] at hf
  have hnext' : ({ s.after p (k.length + v.length + 2) with mem := m5 } : Proc).next = p + (k.length + v.length + 2) := by
    unfold Proc.next Proc.after
    simp only
    rw [if_neg (by omega)]
  have hgood : Good { s.after p (k.length + v.length + 2) with mem := m5 } ((p, k ++ 61 :: v ++ [0]) :: bs) :=
    hg1.write (pre := []) e7 (by rw [hc]; simp; omega) e8 fun i hi hi' => by
      rcases hi with hi | hi
      · exact e9 i hi
      · rw [hcur] at hi'; omega
  have hbelow : ∀ i, i < s.next → m5[i]? = s.mem[i]? := fun i hi => by rw [e9 i (by omega), hbel i hi]
  have hent : Ents m5 (p + (k.length + v.length + 2)) [p] [k ++ 61 :: v] := by
    refine ⟨⟨by omega, ⟨e8, fun x hx => ?_⟩, by simp; omega⟩, trivial⟩
    rcases List.mem_append.1 hx with hx | hx
    · exact hk.2 x hx
    · rcases List.mem_cons.1 hx with rfl | hx
      · decide
      · exact hv.2 x hx
  have run : ∀ i x w1 w2, es.findIdx (matches' k) = i → Words.get (ps ++ 0 :: rest) i = ok x → Words.put (ps ++ 0 :: rest) i p = ok w1 →
      (if x = 0 then w1.put (i + 1) 0 else ok w1) = ok w2 → setenv s (ps ++ 0 :: rest) name value o = ok ({ s.after p (k.length + v.length + 2) with mem := m5 }, w2, 0) := by
    intro i x w1 w2 h1 h2 h3 h4
    unfold setenv
    simp only [strlen_ok hk hkl, ok_bind, hf, h1, strlen_ok hv hvl, em, h2, h3, ubUnless, if_pos (show p ≠ 0 by omega), e1, e2, e3, e4, e5, e6]
    by_cases hx : x = 0
    · rw [if_pos hx] at h4 ⊢; rw [h4]; rfl
    · rw [if_neg hx] at h4 ⊢; cases h4; rfl
  rcases find_cases k es with ⟨h0, h1, h2⟩ | ⟨es1, u, es2, rfl, h0, h1, h2⟩
  · rw [setEntry_none h0]
    have hps := h.length
    obtain ⟨y, rest', rfl⟩ : ∃ y r, rest = y :: r := by
      cases rest with
      | nil => simp at hw; omega
      | cons y r => exact ⟨y, r, rfl⟩
    have hput : Words.put (ps ++ p :: y :: rest') (ps.length + 1) 0 = ok (ps ++ p :: 0 :: rest') := by
      have := put_at (ps ++ [p]) rest' y 0
      simpa using this
    refine ⟨p, _, ps ++ p :: 0 :: rest', run ps.length 0 _ _ (by rw [h1, hps]) (get_at _ _ _) (put_at _ _ _ _) (by rw [if_pos rfl, hput]), hgood, ?_, by simp, hbelow, by omega, by omega, hlim, rfl⟩
    rw [hnext']
    refine environ_iff.2 ⟨ps ++ [p], rest', by simp, (h.frame (by omega) hbelow).append hent⟩
  · rw [setEntry_some h0]
    obtain ⟨ps1, q, ps2, rfl, h3, h4, h5, h6⟩ := h.split
    have hget : Words.get ((ps1 ++ q :: ps2) ++ 0 :: rest) ps1.length = ok q := by
      rw [List.append_assoc, List.cons_append, get_at]
    have hput : Words.put ((ps1 ++ q :: ps2) ++ 0 :: rest) ps1.length p = ok ((ps1 ++ p :: ps2) ++ 0 :: rest) := by
      rw [List.append_assoc, List.cons_append, put_at, List.append_assoc, List.cons_append]
    refine ⟨p, _, (ps1 ++ p :: ps2) ++ 0 :: rest, run ps1.length q _ _ (by rw [h1, h3]) hget hput (by rw [if_neg h5.1]), hgood, ?_, by simp, hbelow, by omega, by omega, hlim, rfl⟩
    rw [hnext']
    exact environ_iff.2 ⟨ps1 ++ p :: ps2, rest, rfl, (h4.frame (by omega) hbelow).append (es2 := [k ++ 61 :: v] ++ es2) (ps2 := [p] ++ ps2) (hent.append (h6.frame (by omega) hbelow))⟩

theorem envShift_ok {rest : List Nat} : ∀ (ps : List Nat) (pre : List Nat) (fuel : Nat), (∀ p ∈ ps, p ≠ 0) → ps.length < fuel →
    envShift (pre ++ (ps.headD 0) :: (ps ++ 0 :: rest)) fuel pre.length = ok (pre ++ ps ++ 0 :: 0 :: rest)
  | [], pre, fuel + 1, _, _ => by
    simp [envShift, get_at]
  | p :: ps, pre, fuel + 1, h, hf => by
    have hget : Words.get (pre ++ p :: p :: (ps ++ 0 :: rest)) (pre.length + 2) = ok (ps.headD 0) := by
      cases ps with
      | nil => have := get_at (pre ++ [p, p]) rest 0; simpa using this
      | cons q ps => have := get_at (pre ++ [p, p]) (ps ++ 0 :: rest) q; simpa using this
    have hput : Words.put (pre ++ p :: p :: (ps ++ 0 :: rest)) (pre.length + 1) (ps.headD 0) = ok ((pre ++ [p]) ++ ps.headD 0 :: (ps ++ 0 :: rest)) := by
      have := put_at (pre ++ [p]) (ps ++ 0 :: rest) p (ps.headD 0); simpa using this
    have ih := envShift_ok (rest := rest) ps (pre ++ [p]) fuel (fun q hq => h q (by simp [hq])) (by simpa using hf)
    simp only [List.length_append, List.length_singleton] at ih
    simp only [envShift, List.headD_cons, List.cons_append, get_at, ok_bind, if_neg (h p (by simp)), hget, hput, ih]
    simp

/-- What `unsetenv` leaves: the entry after one that is removed is not looked at. -/
def unsetEntry (k : List Byte) : List (List Byte) → List (List Byte)
  | [] => []
  | e :: es => if matches' k e then (match es with
      | [] => []
      | f :: es => f :: unsetEntry k es) else e :: unsetEntry k es

theorem unsetEntry_miss (h : matches' k e = false) : unsetEntry k (e :: es) = e :: unsetEntry k es := by
  rw [unsetEntry.eq_def]; simp [h]

theorem Ents.ne {ps : List Nat} (h : Ents m b ps es) : ∀ p ∈ ps, p ≠ 0 := by
  intro p hp
  obtain ⟨i, hi, rfl⟩ := List.mem_iff_getElem.1 hp
  have hl := h.length
  exact ((ents_iff.1 h).2 i _ (es[i]'(by omega)) (by simp [hi]) (by simp [show i < es.length by omega])).1

theorem unsetLoop_ok (hk : CStr m a k) : ∀ (fuel : Nat) (ps : List Nat) (es : List (List Byte)) (pre rest : List Nat) (es0 : List (List Byte)),
    Ents m b pre es0 → Ents m b ps es → ps.length < fuel →
    ∃ w', unsetLoop m a k.length fuel (pre ++ (ps ++ 0 :: rest)) pre.length = ok w' ∧ w'.length = (pre ++ (ps ++ 0 :: rest)).length ∧ Environ m w' (es0 ++ unsetEntry k es) b
  | fuel + 1, [], [], pre, rest, es0, h0, _, _ => by
    refine ⟨pre ++ 0 :: rest, ?_, rfl, ?_⟩
    · simp only [unsetLoop, List.nil_append, get_at, ok_bind, if_pos]
    · simp only [unsetEntry, List.append_nil]
      exact environ_iff.2 ⟨pre, rest, rfl, h0⟩
  | fuel + 1, p :: ps, e :: es, pre, rest, es0, h0, h, hf => by
    have hps := h.2.length
    cases hm : matches' k e with
    | false =>
      obtain ⟨w', e1, e2, e3⟩ := unsetLoop_ok hk fuel ps es (pre ++ [p]) rest (es0 ++ [e]) (h0.append ⟨h.1, trivial⟩) h.2 (by simpa using hf)
      refine ⟨w', ?_, by simpa using e2, by simpa [unsetEntry_miss hm] using e3⟩
      simp only [List.length_append, List.length_singleton, List.append_assoc, List.cons_append, List.nil_append] at e1
      simp only [unsetLoop, List.cons_append, get_at, ok_bind, if_neg h.1.1, entryTest_ok hk h.1.2.1, hm, Bool.false_eq_true, if_false, e1]
    | true =>
      have hget : Words.get (pre ++ p :: (ps ++ 0 :: rest)) (pre.length + 1) = ok (ps.headD 0) := by
        cases ps with
        | nil => have := get_at (pre ++ [p]) rest 0; simpa using this
        | cons q ps => have := get_at (pre ++ [p]) (ps ++ 0 :: rest) q; simpa using this
      have hsh := envShift_ok (rest := rest) ps pre ((pre ++ ps.headD 0 :: (ps ++ 0 :: rest)).length + 1) h.2.ne (by simp; omega)
      have hstep : unsetLoop m a k.length (fuel + 1) (pre ++ (p :: ps ++ 0 :: rest)) pre.length = unsetLoop m a k.length fuel (pre ++ ps ++ 0 :: 0 :: rest) (pre.length + 1) := by
        simp only [unsetLoop, List.cons_append, get_at, ok_bind, if_neg h.1.1, entryTest_ok hk h.1.2.1, hm, if_true, hget, put_at, hsh]
      rw [hstep]
      match ps, es, h.2 with
      | [], [], _ =>
        refine ⟨pre ++ 0 :: 0 :: rest, ?_, by simp, ?_⟩
        · obtain ⟨fuel, rfl⟩ : ∃ f, fuel = f + 1 := ⟨fuel - 1, by simp at hf; omega⟩
          have := get_at (pre ++ [0]) rest 0
          simp only [List.length_append, List.length_singleton, List.append_assoc, List.cons_append, List.nil_append] at this
          simp only [unsetLoop, List.append_nil, this, ok_bind, if_pos]
        · simp only [unsetEntry, hm, if_true, List.append_nil]
          exact environ_iff.2 ⟨pre, 0 :: rest, rfl, h0⟩
      | q :: ps, f :: es, h2 =>
        obtain ⟨w', e1, e2, e3⟩ := unsetLoop_ok hk fuel ps es (pre ++ [q]) (0 :: rest) (es0 ++ [f]) (h0.append ⟨h2.1, trivial⟩) h2.2 (by simp at hf; omega)
        simp only [List.length_append, List.length_singleton, List.append_assoc, List.cons_append, List.nil_append] at e1
        refine ⟨w', by simpa using e1, by simp at e2 ⊢; omega, by simpa [unsetEntry, hm] using e3⟩
  | _ + 1, [], _ :: _, _, _, _, _, h, _ => nomatch h
  | _ + 1, _ :: _, [], _, _, _, _, h, _ => nomatch h

theorem unsetenv_ok (he : Environ m w es b) (hk : CStr m a k) (hkl : k.length ≤ INT_MAX) :
    ∃ w', unsetenv m w a = ok w' ∧ w'.length = w.length ∧ Environ m w' (unsetEntry k es) b := by
  obtain ⟨ps, rest, rfl, h⟩ := environ_iff.1 he
  obtain ⟨w', e1, e2, e3⟩ := unsetLoop_ok hk ((ps ++ 0 :: rest).length + 1) ps es [] rest [] trivial h (by simp; omega)
  exact ⟨w', by simp only [unsetenv, strlen_ok hk hkl, ok_bind]; exact e1, e2, e3⟩

/-! What this does to the values -/

theorem matches_iff : matches' k e = true ↔ ∃ v, e = k ++ 61 :: v := by
  unfold matches'
  rw [List.isPrefixOf_iff_prefix]
  constructor
  · rintro ⟨t, rfl⟩; exact ⟨t, by simp⟩
  · rintro ⟨t, rfl⟩; exact ⟨t, by simp⟩

/-- The name of an entry is what stands before the first `=`. -/
theorem name_unique {k' u v : List Byte} (hk : VarName k) (hk' : VarName k') (h : k ++ 61 :: u = k' ++ 61 :: v) : k = k' := by
  induction k generalizing k' with
  | nil =>
    cases k' with
    | nil => rfl
    | cons x k' => simp only [List.nil_append, List.cons_append, List.cons.injEq] at h; exact absurd h.1 (fun hx => hk' (by simp [← hx]))
  | cons y k ih =>
    cases k' with
    | nil => simp only [List.nil_append, List.cons_append, List.cons.injEq] at h; exact absurd h.1 (fun hx => hk (by simp [hx]))
    | cons x k' =>
      simp only [List.cons_append, List.cons.injEq] at h
      rw [h.1, ih (fun hx => hk (by simp [hx])) (fun hx => hk' (by simp [hx])) h.2]

theorem matches_other {k' v : List Byte} (hk : VarName k) (hk' : VarName k') (hne : k' ≠ k) : matches' k' (k ++ 61 :: v) = false := by
  cases h : matches' k' (k ++ 61 :: v) with
  | false => rfl
  | true =>
    obtain ⟨u, hu⟩ := matches_iff.1 h
    exact absurd (name_unique hk hk' hu).symm hne

theorem envValue_cons_miss (h : matches' k e = false) : envValue k (e :: es) = envValue k es := by
  simp [envValue, List.findSome?_cons, entryValue_none h]

theorem envValue_cons_hit {v : List Byte} : envValue k ((k ++ 61 :: v) :: es) = some v := by
  obtain ⟨u, hu, h⟩ := entryValue_some (matches_self k v)
  rw [envValue, List.findSome?_cons, h]
  simp only [List.append_cancel_left_eq, List.cons.injEq, true_and] at hu
  rw [hu]

theorem setEntry_self {v : List Byte} : envValue k (setEntry k v es) = some v := by
  induction es with
  | nil => exact envValue_cons_hit
  | cons e es ih =>
    unfold setEntry
    cases h : matches' k e with
    | true => simp only [if_true]; exact envValue_cons_hit
    | false => simp only [Bool.false_eq_true, if_false]; rw [envValue_cons_miss h, ih]

theorem setEntry_other {k' v : List Byte} (hk : VarName k) (hk' : VarName k') (hne : k' ≠ k) : envValue k' (setEntry k v es) = envValue k' es := by
  induction es with
  | nil => simp only [setEntry, envValue_cons_miss (matches_other hk hk' hne)]
  | cons e es ih =>
    unfold setEntry
    cases h : matches' k e with
    | true =>
      obtain ⟨u, rfl⟩ := matches_iff.1 h
      simp only [if_true, envValue_cons_miss (matches_other hk hk' hne)]
    | false =>
      simp only [Bool.false_eq_true, if_false]
      cases h' : matches' k' e with
      | true => obtain ⟨u, rfl⟩ := matches_iff.1 h'; rw [envValue_cons_hit, envValue_cons_hit]
      | false => rw [envValue_cons_miss h', envValue_cons_miss h', ih]

theorem unsetEntry_other {k' : List Byte} (hk : VarName k) (hk' : VarName k') (hne : k' ≠ k) : ∀ es, envValue k' (unsetEntry k es) = envValue k' es
  | [] => rfl
  | e :: es => by
    cases h : matches' k e with
    | true =>
      obtain ⟨u, rfl⟩ := matches_iff.1 h
      rw [envValue_cons_miss (matches_other hk hk' hne)]
      cases es with
      | nil => simp [unsetEntry, h]
      | cons f es =>
        simp only [unsetEntry, h, if_true]
        have ih := unsetEntry_other hk hk' hne es
        cases h' : matches' k' f with
        | true => obtain ⟨u, rfl⟩ := matches_iff.1 h'; rw [envValue_cons_hit, envValue_cons_hit]
        | false => rw [envValue_cons_miss h', envValue_cons_miss h', ih]
    | false =>
      rw [unsetEntry_miss h]
      have ih := unsetEntry_other hk hk' hne es
      cases h' : matches' k' e with
      | true => obtain ⟨u, rfl⟩ := matches_iff.1 h'; rw [envValue_cons_hit, envValue_cons_hit]
      | false => rw [envValue_cons_miss h', envValue_cons_miss h', ih]

theorem matches_of_value (h : entryValue k e = none) : matches' k e = false := by
  cases hm : matches' k e with
  | false => rfl
  | true => obtain ⟨v, -, hv⟩ := entryValue_some hm; rw [h] at hv; cases hv

theorem unsetEntry_self : ∀ es : List (List Byte), (∀ es1 e f es2, es = es1 ++ e :: f :: es2 → entryValue k e = none ∨ entryValue k f = none) →
    envValue k (unsetEntry k es) = none
  | [], _ => rfl
  | e :: es, hd => by
    cases h : matches' k e with
    | true =>
      cases es with
      | nil => simp only [unsetEntry, h, if_true]; rfl
      | cons f es =>
        simp only [unsetEntry, h, if_true]
        have hf : matches' k f = false := by
          rcases hd [] e f es rfl with h1 | h1
          · rw [matches_of_value h1] at h; cases h
          · exact matches_of_value h1
        rw [envValue_cons_miss hf]
        exact unsetEntry_self es fun es1 a b es2 h => hd (e :: f :: es1) a b es2 (by rw [h]; rfl)
    | false =>
      rw [unsetEntry_miss h, envValue_cons_miss h]
      exact unsetEntry_self es fun es1 a b es2 h => hd (e :: es1) a b es2 (by rw [h]; rfl)

theorem unsetEntry_sublist : ∀ es : List (List Byte), (unsetEntry k es).Sublist es
  | [] => .slnil
  | e :: es => by
    cases h : matches' k e with
    | true =>
      cases es with
      | nil => simp only [unsetEntry, h, if_true]; exact .cons _ .slnil
      | cons f es => simp only [unsetEntry, h, if_true]; exact .cons _ (.cons_cons _ (unsetEntry_sublist es))
    | false => rw [unsetEntry_miss h]; exact .cons_cons _ (unsetEntry_sublist es)

theorem setEntry_length {v : List Byte} : (setEntry k v es).length ≤ es.length + 1 := by
  induction es with
  | nil => simp [setEntry]
  | cons e es ih =>
    unfold setEntry
    split
    · simp
    · simpa using ih

theorem setEntry_mem {v x : List Byte} (h : x ∈ setEntry k v es) : x = k ++ 61 :: v ∨ x ∈ es := by
  induction es with
  | nil => simp only [setEntry, List.mem_singleton] at h; exact .inl h
  | cons e es ih =>
    unfold setEntry at h
    split at h
    · rcases List.mem_cons.1 h with h | h
      · exact .inl h
      · exact .inr (by simp [h])
    · rcases List.mem_cons.1 h with h | h
      · exact .inr (by simp [h])
      · rcases ih h with h | h
        · exact .inl h
        · exact .inr (by simp [h])

theorem setEntry_distinct {v : List Byte} (hk : VarName k) (h : OneEntryEach es) : OneEntryEach (setEntry k v es) := by
  induction es with
  | nil => exact List.pairwise_singleton _ _
  | cons e es ih =>
    obtain ⟨h1, h2⟩ := List.pairwise_cons.1 h
    unfold setEntry
    cases hm : matches' k e with
    | true =>
      simp only [if_true]
      refine List.pairwise_cons.2 ⟨fun f hf k' hk' => ?_, h2⟩
      by_cases hkk : k' = k
      · subst hkk
        rcases h1 f hf k' hk' with h3 | h3
        · rw [matches_of_value h3] at hm; cases hm
        · exact .inr h3
      · exact .inl (entryValue_none (matches_other hk hk' hkk))
    | false =>
      simp only [Bool.false_eq_true, if_false]
      refine List.pairwise_cons.2 ⟨fun f hf k' hk' => ?_, ih h2⟩
      rcases setEntry_mem hf with rfl | hf
      · by_cases hkk : k' = k
        · subst hkk; exact .inl (entryValue_none hm)
        · exact .inr (entryValue_none (matches_other hk hk' hkk))
      · exact h1 f hf k' hk'

theorem adjacent_of_distinct (hk : VarName k) (h : OneEntryEach es) : ∀ es1 e f es2, es = es1 ++ e :: f :: es2 → entryValue k e = none ∨ entryValue k f = none := by
  rintro es1 e f es2 rfl
  have h1 := (List.pairwise_append.1 h).2.1
  exact (List.pairwise_cons.1 h1).1 f (by simp) k hk

theorem _root_.Mes.Spec.EnvCall.Valid.frame {c : EnvCall} {b' : Nat} (h : c.Valid m b) (hb : b ≤ b') (hs : ∀ i, i < b → m'[i]? = m[i]?) : c.Valid m' b' := by
  cases c with
  | set k v n x o =>
    obtain ⟨h1, h2, h3, h4, h5, h6⟩ := h
    exact ⟨h1, h2.frame fun i hi => hs i (by omega), h3.frame fun i hi => hs i (by omega), by omega, by omega, h6⟩
  | unset k n =>
    obtain ⟨h1, h2, h3, h4⟩ := h
    exact ⟨h1, h2.frame fun i hi => hs i (by omega), by omega, h4⟩

theorem runEnvCalls_ok : ∀ (cs : List EnvCall) {s : Proc} {bs : List Block} {w : Words} {es : List (List Byte)} (f : List Byte → Option (List Byte)),
    Good s bs → Environ s.mem w es s.next → OneEntryEach es → 8 ∣ s.page → (∀ c ∈ cs, c.Valid s.mem s.next) →
    s.next + (cs.map EnvCall.need).sum ≤ s.limit → es.length + 1 + (cs.map EnvCall.words).sum ≤ w.length →
    (∀ k, VarName k → envValue k es = f k) →
    ∃ s' w' es' bs', runEnvCalls s w cs = ok (s', w') ∧ Good s' bs' ∧ Environ s'.mem w' es' s'.next ∧ (∀ b ∈ bs, b ∈ bs') ∧
      ∀ k, VarName k → envValue k es' = (cs.foldl EnvCall.effect f) k
  | [], s, bs, w, es, f, hg, he, _, _, _, _, _, hf => ⟨s, w, es, bs, rfl, hg, he, fun _ h => h, hf⟩
  | .set k v n x o :: cs, s, bs, w, es, f, hg, he, hd, hp, hv, hr, hw, hf => by
    simp only [List.map_cons, List.sum_cons, EnvCall.need, EnvCall.words] at hr hw
    obtain ⟨h1, h2, h3, h4, h5, h6, h7, h8⟩ := hv _ (List.mem_cons_self ..)
    obtain ⟨p, s1, w1, e1, e2, e3, e4, e5, e6, e7, e8, e9⟩ := setenv_ok (o := o) hg he h2 h3 h4 h5 (by unfold INT_MAX; omega) (by unfold INT_MAX; omega) (by omega) (by omega)
      (fun p _ _ hp8 hdvd => by
        have := Nat.dvd_trans hp hdvd
        omega)
    obtain ⟨s', w', es', bs', g1, g2, g3, g4, g5⟩ := runEnvCalls_ok cs (EnvCall.effect f (.set k v n x o)) e2 e3 (setEntry_distinct h1 hd) (e9 ▸ hp)
      (fun c hc => (hv c (by simp [hc])).frame e6 e5) (by rw [e8]; omega) (by have := setEntry_length (k := k) (v := v) (es := es); rw [e4]; omega) (fun k' hk' => by
        unfold EnvCall.effect
        simp only
        by_cases hkk : k' = k
        · subst hkk; rw [if_pos rfl, setEntry_self]
        · rw [if_neg hkk, setEntry_other h1 hk' hkk, hf k' hk'])
    exact ⟨s', w', es', bs', by simp only [runEnvCalls, EnvCall.run, e1, ok_bind, g1], g2, g3, fun b hb => g4 b (by simp [hb]), g5⟩
  | .unset k n :: cs, s, bs, w, es, f, hg, he, hd, hp, hv, hr, hw, hf => by
    simp only [List.map_cons, List.sum_cons, EnvCall.need, EnvCall.words, Nat.zero_add] at hr hw
    obtain ⟨h1, h2, h3, h4⟩ := hv _ (List.mem_cons_self ..)
    obtain ⟨w1, e1, e2, e3⟩ := unsetenv_ok he h2 (by unfold INT_MAX; omega)
    have hsub := unsetEntry_sublist (k := k) es
    obtain ⟨s', w', es', bs', g1, g2, g3, g4, g5⟩ := runEnvCalls_ok cs (EnvCall.effect f (.unset k n)) hg e3 (hd.sublist hsub) hp
      (fun c hc => hv c (by simp [hc])) hr (by have := hsub.length_le; rw [e2]; omega) (fun k' hk' => by
        unfold EnvCall.effect
        simp only
        by_cases hkk : k' = k
        · subst hkk; rw [if_pos rfl, unsetEntry_self _ (adjacent_of_distinct h1 hd)]
        · rw [if_neg hkk, unsetEntry_other h1 hk' hkk, hf k' hk'])
    exact ⟨s', w', es', bs', by simp only [runEnvCalls, EnvCall.run, e1, ok_bind, g1], g2, g3, g4, g5⟩

end Mes.C
