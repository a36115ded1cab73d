import Verif.Proof.Text
import Verif.Spec.Sample
/-
Properties C15-C17: strings (/repo/src/string.c).

`IsString s x bs` (Spec/Text.lean): the string at `x` has the bytes `bs`; `code b`: the character code (0-255) of a byte.
-/
namespace Mes.Props
open Res Spec

/-! ## C15 -/

/-- list->string gives the string with the low bytes of the character codes. -/
theorem C15_list_to_string {s : St} {fuel : Nat} {p : Int} {ns : List Int} (h : Chars s p ns) (hf : ns.length < fuel)
    (hm : ns.length < s.maxString) (hr : Room s (stringCells ns.length)) :
    ∃ r s', listToString s fuel p = ok (r, s') ∧ IsString s' r (ns.map toByte) ∧ Ext s s' ∧
      s'.free ≤ s.free + stringCells ns.length := by
  obtain ⟨s', h1, h2, h3, h4⟩ := makeString_ok (s := s) (bs := ns.map toByte) (by simp; omega) (by simpa using hr)
  refine ⟨s.free, s', ?_, h2, h3, by simpa using h4⟩
  simp only [listToString, listToCstring_ok h hf hm, ok_bind, h1]

/-- string->list gives the list of the characters with the codes of the bytes. -/
theorem C15_string_to_list {s : St} {x : Int} {bs : List Byte} (h : IsString s x bs) (hr : Room s (2 * bs.length)) :
    ∃ r s', stringToList s x = ok (r, s') ∧ Chars s' r (bs.map code) ∧ Ext s s' ∧ s'.free = s.free + 2 * bs.length := by
  obtain ⟨r, s', h1, h2⟩ := bytesToList_ok (bs := bs) hr
  refine ⟨r, s', ?_, h2⟩
  simp only [stringToList, textOf_ok h.toHasText, ok_bind, h1]

/-- string->list of list->string is a list of the same byte characters. -/
theorem C15_list_round_trip {s : St} {fuel : Nat} {p : Int} {ns : List Int} (h : Chars s p ns)
    (hb : ∀ n ∈ ns, 0 ≤ n ∧ n < 256) (hf : ns.length < fuel) (hm : ns.length < s.maxString)
    (hr : Room s (stringCells ns.length + 2 * ns.length)) :
    ∃ x s1 r s2, listToString s fuel p = ok (x, s1) ∧ stringToList s1 x = ok (r, s2) ∧ Chars s2 r ns ∧ Ext s s2 := by
  obtain ⟨x, s1, h1, h2, h3, h4⟩ := C15_list_to_string h hf hm (hr.mono (by omega))
  have hl : (ns.map toByte).length = ns.length := by simp
  obtain ⟨r, s2, g1, g2, g3, -⟩ := C15_string_to_list h2 (by rw [hl]; exact hr.step h3 (by omega))
  rw [map_code_toByte hb] at g2
  exact ⟨x, s1, r, s2, h1, g1, g2, h3.trans g3⟩

/-- list->string of string->list is a string with the same bytes, and string=? says so. -/
theorem C15_string_round_trip {s : St} {fuel : Nat} {x : Int} {bs : List Byte} (h : IsString s x bs)
    (hf : bs.length < fuel) (hm : bs.length < s.maxString) (hr : Room s (stringCells bs.length + 2 * bs.length)) :
    ∃ p s1 y s2, stringToList s x = ok (p, s1) ∧ listToString s1 fuel p = ok (y, s2) ∧ IsString s2 y bs ∧
      stringEqual s2 x y = ok c_t ∧ Ext s s2 := by
  obtain ⟨p, s1, h1, h2, h3, h4⟩ := C15_string_to_list h (hr.mono (by unfold stringCells; omega))
  have hl : (bs.map code).length = bs.length := by simp
  obtain ⟨y, s2, g1, g2, g3, -⟩ := C15_list_to_string h2 (by rw [hl]; exact hf) (by rw [hl, h3.maxString]; exact hm)
    (by rw [hl]; exact hr.step h3 (by omega))
  rw [map_toByte_code] at g2
  have hx := h.ext (h3.trans g3)
  refine ⟨p, s1, y, s2, h1, g1, g2, ?_, h3.trans g3⟩
  rw [stringEqual_ok hx.toHasText g2.toHasText (.inl ⟨hx.tag, g2.tag⟩), if_pos rfl]

/-- string-length is the number of characters. -/
theorem C15_string_length {s : St} {x : Int} {bs : List Byte} (h : IsString s x bs) (hr : Room s 1) :
    ∃ r s', stringLength s x = ok (r, s') ∧ IsNum s' r bs.length ∧ Ext s s' := by
  refine ⟨_, _, ?_, hr.push_isNum _, push_ext ..⟩
  simp only [stringLength, St.rd_ok h.valid, ok_bind, assert_true h.tag, h.length, makeNumber_ok hr]

/-- The bytes of a string object. -/
def bytes (bs : List Byte) : Cell := { tag := .bytes, car := bs.length, cdr := 0, bytes := bs }
/-- A string header. -/
def str (n : Int) (a : Int) : Cell := { tag := .string, car := n, cdr := a }

/-- The string "a\xff" at 116, "" at 121, and the list (a \xff) of characters at 125. -/
def strings : St :=
  sample [str 2 117, bytes [97, 255, 0], default, default, default, str 0 122, bytes [0], default, default,
    pair 127 126, pair 128 c_nil, chr 97, chr 255]
example : IsString strings 116 [97, 255] ∧ IsString strings 121 [] ∧ Chars strings 125 [97, 255] ∧
    Room strings (stringCells 2 + 2 * 2) ∧ (2 : Nat) < strings.maxString :=
  ⟨⟨⟨by decide, rfl, by decide, rfl, rfl⟩, rfl⟩, ⟨⟨by decide, rfl, by decide, rfl, rfl⟩, rfl⟩,
    .cons (by decide) (by decide) rfl ⟨by decide, rfl, rfl⟩
      (.cons (by decide) (by decide) rfl ⟨by decide, rfl, rfl⟩ .nil),
    ⟨by decide, by decide⟩, by decide⟩

/-! ## C16 -/

/-- string-append concatenates. -/
theorem C16_string_append {s : St} {fuel : Nat} {p : Int} {xs : List (List Byte)} (h : ListOf s (IsString s) p xs)
    (hf : xs.length < fuel) (hm : xs.flatten.length < s.maxString) (hr : Room s (stringCells xs.flatten.length)) :
    ∃ r s', stringAppend s fuel p = ok (r, s') ∧ IsString s' r xs.flatten ∧ Ext s s' := by
  obtain ⟨s', h1, h2, h3, -⟩ := makeString_ok (s := s) (bs := xs.flatten) (by omega) hr
  refine ⟨s.free, s', ?_, h2, h3⟩
  simp only [stringAppend, stringAppendLoop_ok h hf (acc := []) (by simpa using hm), ok_bind, List.nil_append, h1]

/-- string=? answers #t exactly for equal byte sequences, #f otherwise. -/
theorem C16_string_equal {s : St} {x y : Int} {bs cs : List Byte} (hx : IsString s x bs) (hy : IsString s y cs) :
    stringEqual s x y = ok (if bs = cs then c_t else c_f) :=
  stringEqual_ok hx.toHasText hy.toHasText (.inl ⟨hx.tag, hy.tag⟩)

/-- The full property for string-ref: the k-th character, with the code string->list gives it, and an error for an index
outside the string. -/
def StringRef : Prop :=
  ∀ (s : St) (x k i : Int) (bs : List Byte), IsString s x bs → IsNum s k i → Room s 1 →
    (∀ (n : Nat) b, i = n → bs[n]? = some b → ∃ r s', stringRef s x k = ok (r, s') ∧ IsChar s' r (code b)) ∧
    (i < 0 ∨ bs.length ≤ i → stringRef s x k = err .systemError)

/-- "a\xff" at 116, the indexes 1 and 2 behind it. -/
def refs : St := sample [str 2 117, bytes [97, 255, 0], num 1, num 2]

/-- False: the code of a byte above 127 is negative, (char->integer (string-ref "\xff" 0)) = -1. -/
theorem C16_string_ref_false : ¬ StringRef := by
  intro h
  obtain ⟨r, s', h1, h2⟩ := (h refs 116 118 1 [97, 255] ⟨⟨by decide, rfl, by decide, rfl, rfl⟩, rfl⟩ ⟨by decide, rfl, rfl⟩
    ⟨by decide, by decide⟩).1 1 255 rfl rfl
  have h3 : (do let (r, s) ← stringRef refs 116 118; s.cdr r) = ok (-1) := by decide
  rw [h1] at h3
  simp only [ok_bind, St.cdr_ok h2.valid, h2.value] at h3
  exact absurd h3 (by decide)

/-- And an index equal to the length is accepted. -/
theorem C16_string_ref_end_false : ¬ StringRef := by
  intro h
  have h1 := (h refs 116 119 2 [97, 255] ⟨⟨by decide, rfl, by decide, rfl, rfl⟩, rfl⟩ ⟨by decide, rfl, rfl⟩
    ⟨by decide, by decide⟩).2 (by decide)
  have h3 : (do let (r, s) ← stringRef refs 116 119; s.cdr r) = ok 0 := by decide
  rw [h1] at h3
  cases h3

/-- Missing from string-ref: characters above 127 and the index equal to the length, see the two witnesses.  Otherwise it
is the k-th character, and an index below 0 or above the length is an error. -/
theorem C16_string_ref_partial {s : St} {x k i : Int} {bs : List Byte} (hx : IsString s x bs) (hk : IsNum s k i)
    (hr : Room s 1) :
    (∀ (n : Nat) b, i = n → bs[n]? = some b → b.toNat < 128 →
      ∃ r s', stringRef s x k = ok (r, s') ∧ IsChar s' r (code b) ∧ Ext s s') ∧
    (i < 0 ∨ bs.length < i → stringRef s x k = err .systemError) := by
  have h0 : stringRef s x k = if i < 0 ∨ i > bs.length then err .systemError else
      (Res.ofRead (bs ++ [0])[i.toNat]? >>= fun b => makeChar s (sc b)) := by
    simp only [stringRef, St.rd_ok hx.valid, St.rd_ok hk.valid, ok_bind, assert_true hx.tag, assert_true hk.tag, hk.value,
      hx.length, St.bytes_ok hx.bvalid, hx.bytes]
  refine ⟨fun n b hi hb hlt => ?_, fun hi => ?_⟩
  · have hn : n < bs.length := by
      rcases Nat.lt_or_ge n bs.length with h | h
      · exact h
      · rw [List.getElem?_eq_none h] at hb; cases hb
    have hsc : sc b = code b := by simp [sc, code, hlt]
    have hcb := code_bound b
    refine ⟨s.free, s.push { tag := .char, car := 0, cdr := code b }, ?_, ⟨hr.free_valid _, by simp, by simp⟩, push_ext ..⟩
    rw [h0, if_neg (by omega), show i.toNat = n by omega, List.getElem?_append_left hn, hb]
    simp only [ofRead_some, ok_bind, hsc, makeChar_ok hr, toInt32_id (show -2147483648 ≤ code b by omega) (by omega)]
  · rw [h0, if_pos (by omega)]

/-- Two strings in a list. -/
def strPair : St :=
  sample [str 1 117, bytes [97, 0], default, str 2 120, bytes [98, 99, 0], default, pair 116 123, pair 119 c_nil, num 1]
example : ListOf strPair (IsString strPair) 122 [[97], [98, 99]] ∧ Room strPair (stringCells 3) ∧ IsNum strPair 124 1 :=
  ⟨.cons (by decide) (by decide) rfl ⟨⟨by decide, rfl, by decide, rfl, rfl⟩, rfl⟩
    (.cons (by decide) (by decide) rfl ⟨⟨by decide, rfl, by decide, rfl, rfl⟩, rfl⟩ .nil),
    ⟨by decide, by decide⟩, ⟨by decide, rfl, rfl⟩⟩

/-! ## C17 -/

/-- The full property: whatever list of characters or strings is given, the string is built or a diagnostic stops it, and
no byte is written outside the buffer. -/
def OversizeRejected : Prop :=
  (∀ (s : St) (fuel : Nat) (p : Int) (ns : List Int), Chars s p ns → ns.length < fuel → listToString s fuel p ≠ ub) ∧
  (∀ (s : St) (fuel : Nat) (p : Int) (xs : List (List Byte)), ListOf s (IsString s) p xs → xs.length < fuel →
    stringAppend s fuel p ≠ ub)

/-- A list of eight characters; the sample memory has MAX_STRING 8. -/
def eight : St := sample [chr 97, pair 116 c_nil, pair 116 117, pair 116 118, pair 116 119, pair 116 120, pair 116 121,
  pair 116 122, pair 116 123]

/-- False: a list of exactly MAX_STRING characters is accepted by the check and its terminator is written one byte behind
the buffer. -/
theorem C17_list_to_string_false : ¬ OversizeRejected := by
  intro h
  have hc : IsChar eight 116 97 := ⟨by decide, rfl, rfl⟩
  have hl : Chars eight 124 [97, 97, 97, 97, 97, 97, 97, 97] :=
    .cons (by decide) (by decide) rfl hc (.cons (by decide) (by decide) rfl hc (.cons (by decide) (by decide) rfl hc
      (.cons (by decide) (by decide) rfl hc (.cons (by decide) (by decide) rfl hc (.cons (by decide) (by decide) rfl hc
        (.cons (by decide) (by decide) rfl hc (.cons (by decide) (by decide) rfl hc .nil)))))))
  refine h.1 eight 20 124 _ hl (by decide) ?_
  have e : (do let (_, s) ← listToString eight 20 124; ok s.free) = ub := by decide
  cases hm : listToString eight 20 124 with
  | ub => rfl
  | _ => rw [hm] at e; cases e

/-- Two strings of five bytes. -/
def longPair : St := sample [str 5 117, bytes [97, 97, 97, 97, 97, 0], pair 116 c_nil, pair 116 118]

/-- False for string-append too: the bytes are copied before the length is checked. -/
theorem C17_string_append_false : ¬ OversizeRejected := by
  intro h
  have hs : IsString longPair 116 [97, 97, 97, 97, 97] := ⟨⟨by decide, rfl, by decide, rfl, rfl⟩, rfl⟩
  have hl : ListOf longPair (IsString longPair) 119 [[97, 97, 97, 97, 97], [97, 97, 97, 97, 97]] :=
    .cons (by decide) (by decide) rfl hs (.cons (by decide) (by decide) rfl hs .nil)
  refine h.2 longPair 20 119 _ hl (by decide) ?_
  have e : (do let (_, s) ← stringAppend longPair 20 119; ok s.free) = ub := by decide
  cases hm : stringAppend longPair 20 119 with
  | ub => rfl
  | _ => rw [hm] at e; cases e

/-- How far it does hold: with fewer characters than the limit no byte leaves the buffer (C15_list_to_string,
C16_string_append), and the result is never cut off: whenever a string comes out, it has all the characters. -/
theorem C17_not_truncated_partial {s s' : St} {fuel : Nat} {p r : Int} {ns : List Int} (h : Chars s p ns)
    (hf : ns.length < fuel) (hr : Room s (stringCells ns.length)) (hs : listToString s fuel p = ok (r, s')) :
    ns.length < s.maxString ∧ IsString s' r (ns.map toByte) := by
  have hm : ns.length < s.maxString := by
    rcases Nat.lt_or_ge ns.length s.maxString with h1 | h1
    · exact h1
    · exfalso
      simp only [listToString, listToCstring] at hs
      rcases Nat.lt_or_ge s.maxString ns.length with h2 | h2
      · rw [listToCstringLoop_ub h hf (acc := []) (by simp) (by simpa using h2)] at hs
        cases hs
      · rw [listToCstringLoop_ok h hf (acc := []) (by simpa using h2)] at hs
        simp only [ok_bind] at hs
        rw [ubUnless_false (by simp; omega)] at hs
        cases hs
  obtain ⟨r', s'', h1, h2, -⟩ := C15_list_to_string h hf hm hr
  rw [hs] at h1; cases h1
  exact ⟨hm, h2⟩

/-- make-string itself rejects a text above the limit before it allocates. -/
theorem C17_make_string {s : St} {bs : List Byte} (h : s.maxString < bs.length) :
    makeString s bs = err .systemError := by
  simp [makeString, h]
example : (sample []).maxString < [1, 2, 3, 4, 5, 6, 7, 8, (9 : Byte)].length := by decide

end Mes.Props
