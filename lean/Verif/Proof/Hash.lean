import Verif.Proof.Array
import Verif.Proof.Tree
import Verif.Spec.Table
namespace Mes
open Res Spec

variable {s s' : St} {α : Type} {K : Keys α} {P : Int → Prop}

/-- Laws a kind of keys obeys. -/
structure KeysOk (K : Keys α) : Prop where
  text : ∀ {s p k}, K.at' s p k → HasText s p (K.name k)
  frame : ∀ {s s' : St} {P : Int → Prop} {p k}, K.at' s p k → Frame P s s' → ¬ P p → ¬ P (s.cell p).cdr → K.at' s' p k
  inj : ∀ {s p k k'}, K.at' s p k → K.at' s p k' → k = k'
  tag : ∀ {s p k}, K.at' s p k → (s.cell p).tag ≠ .ref

theorem stringKeys_ok : KeysOk stringKeys where
  text h := h.toHasText
  frame h hf h1 h2 := ⟨h.toHasText.frame hf h1 h2, by rw [hf.same _ h.valid.2 h1]; exact h.tag⟩
  inj h h' := h.toHasText.inj h'.toHasText
  tag h := by rw [h.tag]; decide

theorem symbolKeys_ok (name : Int → List Byte) : KeysOk (symbolKeys name) where
  text h := h.2.1
  frame h hf h1 h2 := ⟨h.1, h.2.1.frame hf h1 h2, by rw [hf.same _ h.2.1.valid.2 h1]; exact h.2.2⟩
  inj h h' := h.1.symm.trans h'.1
  tag h := by rcases h.2.2 with h | h <;> rw [h] <;> decide

theorem Spec.Entry.frame (hK : KeysOk K) {e : Int} {kv : α × Int} (h : Entry K s e kv) (hf : Frame P s s') (h1 : ¬ P e)
    (h2 : ¬ P (s.cell e).car) (h3 : ¬ P (s.cell (s.cell e).car).cdr) : Entry K s' e kv := by
  have e1 := hf.same e h.1.2 h1
  exact ⟨hf.valid h.1, by rw [e1]; exact h.2.1, by rw [e1]; exact hK.frame h.2.2.1 hf h2 h3, by rw [e1]; exact h.2.2.2⟩

theorem Spec.Entry.ext (hK : KeysOk K) {e : Int} {kv : α × Int} (h : Entry K s e kv) (hf : Ext s s') : Entry K s' e kv :=
  h.frame hK hf id id id

/-- A list keeps its contents when its pairs do not change. -/
theorem Spec.ListOf.frame' {β : Type} {R R' : Int → β → Prop} {p : Int} {xs : List β} (h : ListOf s R p xs)
    (hf : Frame P s s') (hp : ∀ q, PairOf s p q → ¬ P q) (hr : ∀ q x, PairOf s p q → R (s.cell q).car x → R' (s.cell q).car x) :
    ListOf s' R' p xs := by
  induction h with
  | nil => exact .nil
  | @cons p x xs hne hv ht hx h ih =>
    have e := hf.same p hv.2 (hp p (.here hne))
    refine .cons hne (hf.valid hv) (by rw [e]; exact ht) (by rw [e]; exact hr p x (.here hne) hx) ?_
    rw [e]
    exact ih (fun q hq => hp q (.next hne hq)) (fun q x hq => hr q x (.next hne hq))

theorem Spec.ListOf.cells {β : Type} {R : Int → β → Prop} {p q : Int} {xs : List β} (h : ListOf s R p xs)
    (hq : PairOf s p q) : s.Valid q ∧ (s.cell q).tag = .pair ∧ ∃ x, R (s.cell q).car x := by
  induction h with
  | nil => cases hq with
    | here h => exact absurd rfl h
    | next h => exact absurd rfl h
  | @cons p x xs hne hv ht hx h ih =>
    cases hq with
    | here _ => exact ⟨hv, ht, x, hx⟩
    | next _ hq => exact ih hq

theorem Spec.ListOf.head {β : Type} {R : Int → β → Prop} {p : Int} {xs : List β} (h : ListOf s R p xs) (hne : xs ≠ []) :
    s.Valid p ∧ (s.cell p).tag = .pair := by
  cases h with
  | nil => exact absurd rfl hne
  | cons _ hv ht => exact ⟨hv, ht⟩

theorem Spec.Bucket.frame (hK : KeysOk K) {p : Int} {H : List (α × Int)} (h : Bucket K s p H) (hf : Frame P s s')
    (hp : H ≠ [] → ∀ q, PairOf s p q → ¬ P q ∧ ¬ P (s.cell q).car ∧ ¬ P (s.cell (s.cell q).car).car ∧
      ¬ P (s.cell (s.cell (s.cell q).car).car).cdr) : Bucket K s' p H := by
  unfold Bucket at *
  split
  · rename_i hH; rw [if_pos hH] at h; exact h
  · rename_i hH
    rw [if_neg hH] at h
    refine h.frame' hf (fun q hq => (hp hH q hq).1) (fun q x hq hx => ?_)
    obtain ⟨-, h2, h3, h4⟩ := hp hH q hq
    exact hx.frame hK hf h2 h3 h4

theorem Spec.IsTable.bucketsOf_frame {t : Int} {n : Nat} {H : List (α × Int)} (h : IsTable K s t n H) (hf : Frame P s s')
    (h1 : ¬ P t) (h2 : ¬ P ((s.cell t).cdr + 4)) : bucketsOf s' t = bucketsOf s t := by
  unfold bucketsOf
  rw [hf.same t h.valid.2 h1, hf.same _ h.rvalid.2 h2]

/-- A table keeps its contents when none of its cells changes. -/
theorem Spec.IsTable.frame (hK : KeysOk K) {t : Int} {n : Nat} {H : List (α × Int)} (h : IsTable K s t n H)
    (hf : Frame P s s') (hp : ∀ a, Part s t n a → ¬ P a)
    (hs : (s'.cell c_f).tag = .special ∧ (s'.cell c_unspecified).tag = .special) : IsTable K s' t n H := by
  have p3 : ¬ P t := hp _ (.inl rfl)
  have p4 : ¬ P ((s.cell t).cdr + 3) := hp _ (.inr (.inl rfl))
  have p5 : ¬ P ((s.cell t).cdr + 4) := hp _ (.inr (.inr (.inl rfl)))
  have p6 : ¬ P (bucketsOf s t) := hp _ (.inr (.inr (.inr (.inl rfl))))
  have p7 : ∀ i : Nat, i < n → ¬ P ((s.cell (bucketsOf s t)).cdr + i) := fun i hi =>
    hp _ (.inr (.inr (.inr (.inr ⟨i, hi, .inl rfl⟩))))
  have eb := h.bucketsOf_frame hf p3 p5
  have et := hf.same t h.valid.2 p3
  have ev := hf.same _ h.vvalid.2 p6
  refine ⟨hf.valid h.valid, by rw [et]; exact h.tag, by rw [et]; exact h.length, by rw [et]; exact h.size.frame hf p4,
    by rw [et]; exact hf.valid h.rvalid, by rw [et, hf.same _ h.rvalid.2 p5]; exact h.rtag,
    by rw [eb]; exact hf.valid h.vvalid, by rw [eb, ev]; exact h.vtag, by rw [eb, ev]; exact h.vlength, h.pos, h.small,
    fun i hi => by rw [eb, ev, et]; exact h.apart i hi, fun i hi => by rw [eb, ev]; exact hf.valid (h.bvalid i hi),
    fun i hi => ?_, fun i hi => ?_, h.ascii, ⟨hf.valid h.fvalid.1, hf.valid h.fvalid.2⟩, hs⟩
  · rw [eb, ev, hf.same _ (h.bvalid i hi).2 (p7 i hi)]; exact h.btag i hi
  · rw [eb, ev, hf.same _ (h.bvalid i hi).2 (p7 i hi)]
    refine (h.bucket i hi).frame hK hf (fun hH q hq => ?_)
    have hpair : (s.cell (s.cell ((s.cell (bucketsOf s t)).cdr + i)).car).tag = .pair := by
      have hb := h.bucket i hi
      unfold Bucket at hb
      rw [if_neg hH] at hb
      exact (hb.head hH).2
    have : ∀ a, (a = q ∨ a = (s.cell q).car ∨
      a = (s.cell (s.cell q).car).car ∨ a = (s.cell (s.cell (s.cell q).car).car).cdr) → ¬ P a := fun a ha =>
        hp a (.inr (.inr (.inr (.inr ⟨i, hi, .inr ⟨hpair, q, hq, ha⟩⟩))))
    exact ⟨this _ (.inl rfl), this _ (.inr (.inl rfl)), this _ (.inr (.inr (.inl rfl))), this _ (.inr (.inr (.inr rfl)))⟩

/-- The cells of a table have these types. -/
theorem Spec.IsTable.part_tag (hK : KeysOk K) {t a : Int} {n : Nat} {H : List (α × Int)} (h : IsTable K s t n H)
    (ha : Part s t n a) : s.Valid a ∧ ((s.cell a).tag = .struct ∨ (s.cell a).tag = .number ∨ (s.cell a).tag = .ref ∨
      (s.cell a).tag = .vector ∨ (s.cell a).tag = .pair ∨ (s.cell a).tag = .bytes ∨ ∃ k, K.at' s a k) := by
  rcases ha with rfl | rfl | rfl | rfl | ⟨i, hi, rfl | ⟨hp, q, hq, ha⟩⟩
  · exact ⟨h.valid, .inl h.tag⟩
  · exact ⟨IsNum.valid h.size, .inr (.inl h.size.tag)⟩
  · exact ⟨h.rvalid, .inr (.inr (.inl h.rtag))⟩
  · exact ⟨h.vvalid, .inr (.inr (.inr (.inl h.vtag)))⟩
  · exact ⟨h.bvalid i hi, .inr (.inr (.inl (h.btag i hi)))⟩
  · have hb := h.bucket i hi
    unfold Bucket at hb
    split at hb
    · rw [hb, h.ftag.2] at hp; cases hp
    · obtain ⟨q1, q2, kv, q3, q4, q5, q6⟩ := hb.cells hq
      rcases ha with rfl | rfl | rfl | rfl
      · exact ⟨q1, .inr (.inr (.inr (.inr (.inl q2))))⟩
      · exact ⟨q3, .inr (.inr (.inr (.inr (.inl q4))))⟩
      · exact ⟨(hK.text q5).valid, .inr (.inr (.inr (.inr (.inr (.inr ⟨_, q5⟩)))))⟩
      · exact ⟨(hK.text q5).bvalid, .inr (.inr (.inr (.inr (.inr (.inl (hK.text q5).btag)))))⟩

theorem Spec.IsTable.ext (hK : KeysOk K) {t : Int} {n : Nat} {H : List (α × Int)} (h : IsTable K s t n H)
    (hf : Ext s s') : IsTable K s' t n H :=
  h.frame hK hf (fun _ _ => id) ⟨by rw [hf.same _ h.fvalid.1.2 id]; exact h.ftag.1,
    by rw [hf.same _ h.fvalid.2.2 id]; exact h.ftag.2⟩

/-! ### Steps of the hash functions -/

theorem fetch_num {p n : Int} (hr : Room s 1) (h : IsNum s p n) :
    fetch s p = ok (s.free, s.push { tag := .number, car := 0, cdr := n }) := by
  simp only [fetch, deref, St.rd_ok h.valid, h.tag, ok_bind]
  simp [St.rd_ok h.valid, h.tag, h.value, makeNumber_ok hr]

theorem fetch_ref {p a : Int} (hv : s.Valid p) (ht : (s.cell p).tag = .ref) (ha : (s.cell p).car = a) (hva : s.Valid a)
    (hs : (s.cell a).tag ≠ .char ∧ (s.cell a).tag ≠ .number) : fetch s p = ok (a, s) := by
  simp [fetch, deref, hv, ht, ha, hva, hs]

theorem tableSize_ok {t : Int} {n : Nat} {H : List (α × Int)} (h : IsTable K s t n H) (hr : Room s 1) :
    structRef s t 3 = ok (s.free, s.push { tag := .number, car := 0, cdr := (n : Int) }) := by
  simp only [structRef, St.rd_ok h.valid, ok_bind, assert_true h.tag, h.length,
    assert_true (show (3 : Int) < 5 by decide), fetch_num hr h.size]

theorem tableBuckets_ok {t : Int} {n : Nat} {H : List (α × Int)} (h : IsTable K s t n H) :
    structRef s t 4 = ok (bucketsOf s t, s) := by
  simp only [structRef, St.rd_ok h.valid, ok_bind, assert_true h.tag, h.length,
    assert_true (show (4 : Int) < 5 by decide)]
  exact fetch_ref h.rvalid h.rtag rfl h.vvalid (by rw [h.vtag]; decide)

/-- The contents of a bucket cell are a pair or *unspecified*. -/
theorem bucket_cases {p : Int} {H : List (α × Int)} (h : Bucket K s p H) (hu : s.Valid c_unspecified)
    (ht : (s.cell c_unspecified).tag = .special) :
    s.Valid p ∧ ((H = [] ∧ p = c_unspecified ∧ (s.cell p).tag = .special) ∨
      (H ≠ [] ∧ (s.cell p).tag = .pair ∧ ListOf s (Entry K s) p H)) := by
  unfold Bucket at h
  split at h
  · rename_i hH; subst h; exact ⟨hu, .inl ⟨hH, rfl, ht⟩⟩
  · rename_i hH
    cases h' : h with
    | nil => exact absurd rfl hH
    | cons hne hv hp => exact ⟨hv, .inr ⟨hH, hp, h⟩⟩

theorem tableBucket_ok {t : Int} {n : Nat} {H : List (α × Int)} (h : IsTable K s t n H) {i : Nat} (hi : i < n) :
    vectorRef s (bucketsOf s t) i = ok ((s.cell ((s.cell (bucketsOf s t)).cdr + i)).car, s) := by
  simp only [vectorRef, St.rd_ok h.vvalid, ok_bind, assert_true h.vtag, h.vlength,
    assert_true (show (i : Int) < n by omega)]
  obtain ⟨hv, hc⟩ := bucket_cases (h.bucket i hi) h.fvalid.2 h.ftag.2
  refine fetch_ref (h.bvalid i hi) (h.btag i hi) rfl hv ?_
  rcases hc with ⟨-, -, hc⟩ | ⟨-, hc, -⟩ <;> rw [hc] <;> decide

theorem hashCstring_ok {bs : List Byte} {n : Nat} (h0 : 0 ≤ hashSum bs) (hn : 0 < n) (hm : n ≤ 2147483647) :
    ∃ h, hashCstring (bs ++ [0]) n = ok h ∧ toUnsigned h = (slot n bs : Int) := by
  have key : hashCstring (bs ++ [0]) n = ok ((hashSum bs).tmod n) := by
    have hn' : ¬ n = 0 := by omega
    match bs with
    | [] => simp [hashCstring, hashSum, Res.ofRead, assert_true hn', sc]
    | [a] =>
      by_cases ha : a = 0
      · subst ha; simp [hashCstring, hashSum, Res.ofRead, assert_true hn', sc]
      · simp [hashCstring, hashSum, Res.ofRead, assert_true hn', ha]
    | a :: b :: cs =>
      by_cases ha : a = 0
      · subst ha; simp [hashCstring, hashSum, Res.ofRead, assert_true hn', sc]
      · by_cases hb : b = 0
        · subst hb; simp [hashCstring, hashSum, Res.ofRead, assert_true hn', ha, sc]
        · simp [hashCstring, hashSum, Res.ofRead, assert_true hn', ha, hb]
  refine ⟨_, key, ?_⟩
  obtain ⟨m, hm'⟩ := Int.eq_ofNat_of_zero_le h0
  unfold toUnsigned slot
  rw [hm']
  have : Int.tmod (m : Int) (n : Int) = ((m % n : Nat) : Int) := (Int.ofNat_tmod m n).symm
  rw [this, Int.toNat_natCast]
  have hlt : m % n < n := Nat.mod_lt _ hn
  omega

theorem slot_lt {n : Nat} (bs : List Byte) (h : 0 < n) : slot n bs < n := Nat.mod_lt _ h

theorem hash_ok {x : Int} {bs : List Byte} {n : Nat} (h : IsString s x bs) (h0 : 0 ≤ hashSum bs) (hn : 0 < n)
    (hm : n ≤ 2147483647) : ∃ h, hash_ s x n = ok h ∧ toUnsigned h = (slot n bs : Int) := by
  obtain ⟨v, h1, h2⟩ := hashCstring_ok h0 hn hm
  exact ⟨v, by simp only [hash_, St.rd_ok h.valid, ok_bind, assert_true h.tag, St.bytes_ok h.bvalid, h.bytes, h1], h2⟩

theorem hashq_ok {x : Int} {bs : List Byte} {n : Nat} (h : HasText s x bs)
    (ht : (s.cell x).tag = .symbol ∨ (s.cell x).tag = .special) (h0 : 0 ≤ hashSum bs) (hn : 0 < n)
    (hm : n ≤ 2147483647) : ∃ h, hashq_ s x n = ok h ∧ toUnsigned h = (slot n bs : Int) := by
  obtain ⟨v, h1, h2⟩ := hashCstring_ok h0 hn hm
  exact ⟨v, by simp only [hashq_, St.rd_ok h.valid, ok_bind, if_pos ht.symm, St.bytes_ok h.bvalid, h.bytes, h1], h2⟩

/-! ### Lookup -/

theorem lookup_filter [DecidableEq α] (k : α) (H : List (α × Int)) (f : α → Nat) :
    lookup k (H.filter (fun e => f e.1 = f k)) = lookup k H := by
  induction H with
  | nil => rfl
  | cons e H ih =>
    by_cases he : e.1 = k
    · simp [lookup, he]
    · by_cases hf : f e.1 = f k
      · simp [lookup, he, hf, ih]
      · simp [lookup, he, hf, ih]

/-- The first entry for the key, or #f. -/
def Found [DecidableEq α] (s : St) (k : α) (H : List (α × Int)) (r : Int) : Prop :=
  match lookup k H with
  | none => r = c_f
  | some v => s.Valid r ∧ (s.cell r).tag = .pair ∧ (s.cell r).cdr = v

theorem assocString_found {fuel : Nat} {x p : Int} {bs : List Byte} {H : List (List Byte × Int)}
    (h : ListOf s (Entry stringKeys s) p H) (hx : IsString s x bs) (hf : H.length < fuel) :
    ∃ r, assocString s x fuel p = ok r ∧ Found s bs H r := by
  induction h generalizing fuel with
  | nil =>
    obtain ⟨fuel, rfl⟩ : ∃ f, fuel = f + 1 := ⟨fuel - 1, by simp at hf; omega⟩
    exact ⟨c_f, by simp [assocString], rfl⟩
  | @cons p e H hne hv ht he h ih =>
    obtain ⟨fuel, rfl⟩ : ∃ f, fuel = f + 1 := ⟨fuel - 1, by simp at hf; omega⟩
    obtain ⟨e1, e2, e3, e4⟩ := he
    have e3' : IsString s (s.cell (s.cell p).car).car e.1 := e3
    simp only [assocString, if_neg hne, St.rd_ok hv, St.car_ok e1, ok_bind, St.tag_ok e3'.valid, e3'.tag, if_true,
      stringEqual_ok hx.toHasText e3'.toHasText (.inl ⟨hx.tag, e3'.tag⟩)]
    by_cases hb : bs = e.1
    · rw [if_pos hb, if_pos rfl]
      refine ⟨_, rfl, ?_⟩
      simp only [Found, lookup, hb, if_true]
      exact ⟨e1, e2, e4⟩
    · rw [if_neg hb, if_neg (by decide)]
      obtain ⟨r, h1, h2⟩ := ih (fuel := fuel) (by simpa using hf)
      refine ⟨r, h1, ?_⟩
      simp only [Found, lookup, if_neg (Ne.symm hb)]
      exact h2

theorem assqPtr_found {name : Int → List Byte} {fuel : Nat} {x p : Int} {H : List (Int × Int)}
    (h : ListOf s (Entry (symbolKeys name) s) p H) (hf : H.length < fuel) :
    ∃ r, assqPtr s x fuel p = ok r ∧ Found s x H r := by
  induction h generalizing fuel with
  | nil =>
    obtain ⟨fuel, rfl⟩ : ∃ f, fuel = f + 1 := ⟨fuel - 1, by simp at hf; omega⟩
    exact ⟨c_f, by simp [assqPtr], rfl⟩
  | @cons p e H hne hv ht he h ih =>
    obtain ⟨fuel, rfl⟩ : ∃ f, fuel = f + 1 := ⟨fuel - 1, by simp at hf; omega⟩
    obtain ⟨e1, e2, e3, e4⟩ := he
    have e3' : (s.cell (s.cell p).car).car = e.1 := e3.1
    simp only [assqPtr, if_neg hne, St.rd_ok hv, St.car_ok e1, ok_bind, e3']
    by_cases hb : x = e.1
    · rw [if_pos hb]
      refine ⟨_, rfl, ?_⟩
      simp only [Found, lookup, hb, if_true]
      exact ⟨e1, e2, e4⟩
    · rw [if_neg hb]
      obtain ⟨r, h1, h2⟩ := ih (fuel := fuel) (by simpa using hf)
      refine ⟨r, h1, ?_⟩
      simp only [Found, lookup, if_neg (Ne.symm hb)]
      exact h2

/-- What hash-ref answers: the value stored last, or #f, or, when the bucket is empty, the car of the default. -/
def refResult [DecidableEq α] (s : St) (k : α) (H : List (α × Int)) (empty : Prop) [Decidable empty] (dflt : Int) : Int :=
  match lookup k H with
  | some v => v
  | none => if empty ∧ (s.cell dflt).tag = .pair then (s.cell dflt).car else c_f

theorem hashRef_ok {fuel : Nat} {t key dflt : Int} {n : Nat} {bs : List Byte} {H : List (List Byte × Int)}
    (h : IsTable stringKeys s t n H) (hk : IsString s key bs) (h0 : 0 ≤ hashSum bs) (hd : s.Valid dflt)
    (hf : H.length < fuel) (hr : Room s 1) :
    hashRef s fuel t key dflt = ok (refResult s bs H (H.filter (fun e => slot n e.1 = slot n bs) = []) dflt,
      s.push { tag := .number, car := 0, cdr := (n : Int) }) := by
  have hx := push_ext s { tag := .number, car := 0, cdr := (n : Int) }
  have hsz := tableSize_ok h hr
  have h' := h.ext stringKeys_ok hx
  have hk' := hk.ext hx
  have hfree := hr.free_valid { tag := .number, car := 0, cdr := (n : Int) }
  have hcd : (s.push { tag := .number, car := 0, cdr := (n : Int) }).cell dflt = s.cell dflt := hx.same _ hd.2 id
  generalize hg : s.push { tag := .number, car := 0, cdr := (n : Int) } = s1 at *
  have hcell : s1.cell s.free = { tag := .number, car := 0, cdr := (n : Int) } := by rw [← hg]; simp
  obtain ⟨hv, e1, e2⟩ := hash_ok hk' h0 h.pos h.small
  have hsl := slot_lt (n := n) bs h.pos
  simp only [hashRef, hsz, ok_bind, St.cdr_ok hfree, hcell, e1, tableBuckets_ok h', e2, tableBucket_ok h' hsl,
    St.rd_ok (hx.valid hd)]
  obtain ⟨hbv, hc⟩ := bucket_cases (h'.bucket (slot n bs) hsl) h'.fvalid.2 h'.ftag.2
  have hlf : lookup bs (H.filter (fun e => slot n (stringKeys.name e.1) = slot n bs)) = lookup bs H :=
    lookup_filter bs H (slot n)
  rw [St.rd_ok hbv, ok_bind]
  unfold refResult
  rcases hc with ⟨hc1, hc2, hc3⟩ | ⟨hc1, hc2, hc3⟩
  · rw [if_neg (by rw [hc3]; decide)]
    rw [hc1] at hlf
    have hc1' : H.filter (fun e => slot n e.1 = slot n bs) = [] := hc1
    rw [← hlf]
    simp only [lookup, hc1', true_and, hcd]
  · rw [if_pos hc2]
    obtain ⟨r, g1, g2⟩ := assocString_found hc3 hk' (Nat.lt_of_le_of_lt (List.length_filter_le _ _) hf)
    simp only [assoc, St.tag_ok hk'.valid, hk'.tag, if_true, ok_bind, g1]
    unfold Found at g2
    rw [hlf] at g2
    have hc1' : H.filter (fun e => slot n e.1 = slot n bs) ≠ [] := hc1
    cases hl : lookup bs H with
    | none =>
      rw [hl] at g2
      simp only at g2
      subst g2
      simp [hc1']
    | some v =>
      rw [hl] at g2
      obtain ⟨k1, k2, k3⟩ := g2
      have : r ≠ c_f := by rintro rfl; rw [h'.ftag.1] at k2; cases k2
      simp only [ne_eq, this, not_false_eq_true, if_true, St.cdr_ok k1, ok_bind, k3]

theorem hashqRef_ok {name : Int → List Byte} {fuel : Nat} {t key dflt : Int} {n : Nat} {H : List (Int × Int)}
    (h : IsTable (symbolKeys name) s t n H) (hk : HasText s key (name key))
    (hkt : (s.cell key).tag = .symbol ∨ (s.cell key).tag = .special) (h0 : 0 ≤ hashSum (name key)) (hd : s.Valid dflt)
    (hdp : (s.cell dflt).tag ≠ .pair) (hf : H.length < fuel) (hr : Room s 1) :
    hashqRef s fuel t key dflt = ok ((lookup key H).getD c_f, s.push { tag := .number, car := 0, cdr := (n : Int) }) := by
  have hx := push_ext s { tag := .number, car := 0, cdr := (n : Int) }
  have hsz := tableSize_ok h hr
  have h' := h.ext (symbolKeys_ok name) hx
  have hk' := hk.ext hx
  have hkt' : ((s.push { tag := .number, car := 0, cdr := (n : Int) }).cell key).tag = .symbol ∨
    ((s.push { tag := .number, car := 0, cdr := (n : Int) }).cell key).tag = .special := by
      rw [hx.same _ hk.valid.2 id]; exact hkt
  have hfree := hr.free_valid { tag := .number, car := 0, cdr := (n : Int) }
  have hcd : (s.push { tag := .number, car := 0, cdr := (n : Int) }).cell dflt = s.cell dflt := hx.same _ hd.2 id
  generalize hg : s.push { tag := .number, car := 0, cdr := (n : Int) } = s1 at *
  have hcell : s1.cell s.free = { tag := .number, car := 0, cdr := (n : Int) } := by rw [← hg]; simp
  obtain ⟨hv, e1, e2⟩ := hashq_ok hk' hkt' h0 h.pos h.small
  have hsl := slot_lt (n := n) (name key) h.pos
  simp only [hashqRef, hashqGetHandle, hsz, ok_bind, St.cdr_ok hfree, hcell, e1, tableBuckets_ok h', e2,
    tableBucket_ok h' hsl, St.rd_ok (hx.valid hd), hcd, if_neg hdp]
  obtain ⟨hbv, hc⟩ := bucket_cases (h'.bucket (slot n (name key)) hsl) h'.fvalid.2 h'.ftag.2
  have hlf : lookup key (H.filter (fun e => slot n ((symbolKeys name).name e.1) = slot n (name key))) = lookup key H :=
    lookup_filter key H (fun k => slot n (name k))
  rw [St.rd_ok hbv, ok_bind]
  rcases hc with ⟨hc1, hc2, hc3⟩ | ⟨hc1, hc2, hc3⟩
  · rw [if_neg (by rw [hc3]; decide), ok_bind]
    rw [hc1] at hlf
    rw [← hlf]
    simp [lookup]
  · rw [if_pos hc2]
    obtain ⟨r, g1, g2⟩ := assqPtr_found (x := key) hc3 (Nat.lt_of_le_of_lt (List.length_filter_le _ _) hf)
    have ha : assq s1 fuel key (s1.cell ((s1.cell (bucketsOf s1 t)).cdr + (slot n (name key) : Int))).car = ok r := by
      simp only [assq, St.rd_ok hbv, hc2, ok_bind, St.rd_ok hk'.valid]
      simp only [ne_eq, not_true, if_false, if_pos hkt', g1]
    simp only [ha, ok_bind]
    unfold Found at g2
    rw [hlf] at g2
    cases hl : lookup key H with
    | none =>
      rw [hl] at g2
      simp only at g2
      subst g2
      simp
    | some v =>
      rw [hl] at g2
      obtain ⟨k1, k2, k3⟩ := g2
      have : r ≠ c_f := by rintro rfl; rw [h'.ftag.1] at k2; cases k2
      simp only [ne_eq, this, not_false_eq_true, if_true, St.cdr_ok k1, ok_bind, k3, Option.getD_some]

/-- The cell that holds the bucket of a key. -/
def bucketCell (s : St) (t : Int) (n : Nat) (bs : List Byte) : Int := (s.cell (bucketsOf s t)).cdr + slot n bs

/-- A store, given the bucket. -/
theorem hashSet__ok [DecidableEq α] (hK : KeysOk K) {t key v : Int} {n : Nat} {k : α} {H : List (α × Int)}
    (h : IsTable K s t n H) (hk : K.at' s key k) (h0 : 0 ≤ hashSum (K.name k)) (hr : Room s 3) :
    ∃ s', hashSet_ s t (slot n (K.name k)) key v = ok (v, s') ∧ IsTable K s' t n ((k, v) :: H) ∧
      Frame (· = bucketCell s t n (K.name k)) s s' ∧ s'.free ≤ s.free + 3 := by
  have hsl := slot_lt (n := n) (K.name k) h.pos
  have hnil : s.Valid c_nil := ⟨by decide, by have := hr.base; simp [c_nil, c_symbol_max] at *; omega⟩
  obtain ⟨hbv, hc⟩ := bucket_cases (h.bucket _ hsl) h.fvalid.2 h.ftag.2
  -- the list of the bucket
  have hlist : ∃ b, (if (s.cell (s.cell (bucketCell s t n (K.name k))).car).tag ≠ .pair then c_nil
      else (s.cell (bucketCell s t n (K.name k))).car) = b ∧
      ListOf s (Entry K s) b (H.filter (fun e => slot n (K.name e.1) = slot n (K.name k))) := by
    unfold bucketCell
    rcases hc with ⟨hc1, hc2, hc3⟩ | ⟨hc1, hc2, hc3⟩
    · exact ⟨c_nil, by rw [if_pos]; rw [hc3]; decide, by rw [hc1]; exact .nil⟩
    · exact ⟨_, by rw [if_neg]; simp [hc2], hc3⟩
  obtain ⟨b, hb1, hb2⟩ := hlist
  have x1 := push_ext s { tag := .pair, car := key, cdr := v }
  have c1 := cons_ok (hr.mono (by decide : (1 : Int) ≤ 3)) key v
  have f1 := hr.free_valid { tag := .pair, car := key, cdr := v }
  have r1 : Room (s.push { tag := .pair, car := key, cdr := v }) 2 := hr.step x1 (by simp; omega)
  generalize hg1 : s.push { tag := .pair, car := key, cdr := v } = s1 at *
  have v1 : s1.cell s.free = { tag := .pair, car := key, cdr := v } := by rw [← hg1]; simp
  have fr1 : s1.free = s.free + 1 := by rw [← hg1]; simp
  have x2 := push_ext s1 { tag := .pair, car := s.free, cdr := b }
  have c2 := cons_ok (r1.mono (by decide : (1 : Int) ≤ 2)) s.free b
  have f2 := r1.free_valid { tag := .pair, car := s.free, cdr := b }
  have r2 : Room (s1.push { tag := .pair, car := s.free, cdr := b }) 1 := r1.step x2 (by simp; omega)
  generalize hg2 : s1.push { tag := .pair, car := s.free, cdr := b } = s2 at *
  have v2 : s2.cell s1.free = { tag := .pair, car := s.free, cdr := b } := by rw [← hg2]; simp
  have fr2 : s2.free = s1.free + 1 := by rw [← hg2]; simp
  have x12 : Ext s s2 := x1.trans x2
  have h2 := h.ext hK x12
  have eb : bucketsOf s2 t = bucketsOf s t := h.bucketsOf_frame x12 id id
  have ev : s2.cell (bucketsOf s t) = s.cell (bucketsOf s t) := x12.same _ h.vvalid.2 id
  have et : s2.cell t = s.cell t := x12.same _ h.valid.2 id
  have hnew : ListOf s2 (Entry K s2) s1.free ((k, v) :: H.filter (fun e => slot n (K.name e.1) = slot n (K.name k))) := by
    refine .cons ?_ f2 (by rw [v2]) ?_ ?_
    · have := hr.base; simp only [c_nil, c_symbol_max] at *; omega
    · rw [v2]
      have e1 := x2.same s.free (by omega) id
      refine ⟨x2.valid f1, by rw [e1, v1], ?_, by rw [e1, v1]⟩
      rw [e1, v1]
      exact hK.frame hk x12 id id
    · rw [v2]
      exact hb2.ext x12 (fun _ _ he => he.ext hK x12)
  -- the store
  have hcell : s2.Valid (bucketCell s t n (K.name k)) := by
    have := h2.bvalid _ hsl; rw [eb, ev] at this; exact this
  have htag2 : (s2.cell (bucketCell s t n (K.name k))).tag = .ref := by
    have := h2.btag _ hsl; rw [eb, ev] at this; exact this
  obtain ⟨s3, g1, g2, g3, g5⟩ := setEntry_raw r2 hcell (e := s1.free) (v := .obj s1.free)
    ⟨rfl, f2, by rw [v2]; exact (by decide : Solid .pair)⟩
  have hns : ∀ a, s2.Valid a → (s2.cell a).tag ≠ .ref → s3.cell a = s2.cell a := fun a ha ht =>
    g2.same a ha.2 (fun e => ht (by rw [e]; exact htag2))
  refine ⟨s3, ?_, ?_, x12.frame.trans g2, by omega⟩
  · simp only [hashSet_, tableBuckets_ok h, ok_bind, tableBucket_ok h hsl, St.rd_ok hbv]
    have hb1' := hb1
    unfold bucketCell at hb1'
    rw [hb1']
    simp only [acons, c1, ok_bind, c2, vectorSet]
    have hvv := h2.vvalid; rw [eb] at hvv
    have hvt := h2.vtag; rw [eb] at hvt
    have hvl := h2.vlength; rw [eb] at hvl
    rw [St.rd_ok hvv]
    simp only [ok_bind, assert_true hvt, hvl, assert_true (show ((slot n (K.name k) : Nat) : Int) < n by omega)]
    rw [ev]
    unfold bucketCell at g1
    rw [g1]
    rfl
  · -- the table afterwards
    have ht3 : s3.cell t = s.cell t := by rw [hns t h2.valid (by rw [h2.tag]; decide), et]
    have hr3 : s3.cell ((s.cell t).cdr + 4) = s.cell ((s.cell t).cdr + 4) := by
      rw [g2.same _ (by rw [← et]; exact h2.rvalid.2), x12.same _ h.rvalid.2 id]
      intro e; exact h.apart _ hsl e.symm
    have eb3 : bucketsOf s3 t = bucketsOf s t := by unfold bucketsOf; rw [ht3, hr3]
    have hv3 : s3.cell (bucketsOf s t) = s.cell (bucketsOf s t) := by
      have hv := h2.vvalid; have ht := h2.vtag
      rw [eb] at hv ht
      rw [hns _ hv (by rw [ht]; decide), ev]
    refine ⟨g2.valid h2.valid, by rw [ht3]; exact h.tag, by rw [ht3]; exact h.length, ?_, ?_, by rw [ht3, hr3]; exact h.rtag,
      ?_, by rw [eb3, hv3]; exact h.vtag, by rw [eb3, hv3]; exact h.vlength, h.pos, h.small, ?_, ?_, ?_, ?_, ?_, ?_, ?_⟩
    · rw [ht3, ← et]
      refine h2.size.frame g2 (fun e => ?_)
      have := h2.size.tag
      rw [e, htag2] at this; cases this
    · rw [ht3]; exact g2.valid (x12.valid h.rvalid)
    · rw [eb3]; exact g2.valid (x12.valid h.vvalid)
    · rw [eb3, hv3, ht3]; exact h.apart
    · rw [eb3, hv3]; exact fun i hi => g2.valid (x12.valid (h.bvalid i hi))
    · intro i hi
      rw [eb3, hv3]
      by_cases hii : (s.cell (bucketsOf s t)).cdr + i = bucketCell s t n (K.name k)
      · rw [hii]; exact g3.1
      · rw [g2.same _ (x12.valid (h.bvalid i hi)).2 hii, x12.same _ (h.bvalid i hi).2 id]; exact h.btag i hi
    · intro i hi
      rw [eb3, hv3]
      have hfr : ∀ (p : Int) (L : List (α × Int)), Bucket K s2 p L → Bucket K s3 p L := fun p L hL => by
        refine hL.frame hK g2 (fun hL0 q hq => ?_)
        unfold Bucket at hL
        rw [if_neg hL0] at hL
        obtain ⟨q1, q2, kv, q3, q4, q5, q6⟩ := hL.cells hq
        have hne : ∀ a, (s2.cell a).tag ≠ .ref → ¬ a = bucketCell s t n (K.name k) := fun a ha e => ha (by rw [e]; exact htag2)
        refine ⟨hne _ (by rw [q2]; decide), hne _ (by rw [q4]; decide), hne _ (hK.tag q5), hne _ ?_⟩
        rw [(hK.text q5).btag]; decide
      by_cases hii : i = slot n (K.name k)
      · subst hii
        have : (s3.cell ((s.cell (bucketsOf s t)).cdr + (slot n (K.name k) : Int))).car = s1.free := g3.2
        rw [this, List.filter_cons_of_pos (by simp)]
        apply hfr
        unfold Bucket
        rw [if_neg (by simp)]
        exact hnew
      · have hcne : (s.cell (bucketsOf s t)).cdr + (i : Int) ≠ bucketCell s t n (K.name k) := by
          unfold bucketCell; omega
        rw [g2.same _ (x12.valid (h.bvalid i hi)).2 hcne, List.filter_cons_of_neg (by simpa using Ne.symm hii)]
        apply hfr
        have := h2.bucket i hi
        rw [eb, ev] at this
        exact this
    · intro e he
      rcases List.mem_cons.1 he with rfl | he
      · exact h0
      · exact h.ascii e he
    · exact ⟨g2.valid h2.fvalid.1, g2.valid h2.fvalid.2⟩
    · exact ⟨by rw [hns _ h2.fvalid.1 (by rw [h2.ftag.1]; decide)]; exact h2.ftag.1,
        by rw [hns _ h2.fvalid.2 (by rw [h2.ftag.2]; decide)]; exact h2.ftag.2⟩

theorem bucketCell_ext {t : Int} {n : Nat} {H : List (α × Int)} (h : IsTable K s t n H) (hf : Ext s s') (bs : List Byte) :
    bucketCell s' t n bs = bucketCell s t n bs := by
  unfold bucketCell
  rw [h.bucketsOf_frame hf id id, hf.same _ h.vvalid.2 id]

theorem hashSet_ok {t key v : Int} {n : Nat} {bs : List Byte} {H : List (List Byte × Int)}
    (h : IsTable stringKeys s t n H) (hk : IsString s key bs) (h0 : 0 ≤ hashSum bs) (hr : Room s 4) :
    ∃ s', hashSet s t key v = ok (v, s') ∧ IsTable stringKeys s' t n ((bs, v) :: H) ∧
      Frame (· = bucketCell s t n bs) s s' ∧ s'.free ≤ s.free + 4 := by
  have hx := push_ext s { tag := .number, car := 0, cdr := (n : Int) }
  have hsz := tableSize_ok h (hr.mono (by decide))
  have h' := h.ext stringKeys_ok hx
  have hk' := hk.ext hx
  have hfree := hr.free_valid { tag := .number, car := 0, cdr := (n : Int) }
  have hr' : Room (s.push { tag := .number, car := 0, cdr := (n : Int) }) 3 := hr.step hx (by simp; omega)
  have hb := bucketCell_ext h hx bs
  have hfr : (s.push { tag := .number, car := 0, cdr := (n : Int) }).free = s.free + 1 := by simp
  generalize hg : s.push { tag := .number, car := 0, cdr := (n : Int) } = s1 at *
  have hcell : s1.cell s.free = { tag := .number, car := 0, cdr := (n : Int) } := by rw [← hg]; simp
  obtain ⟨hv, e1, e2⟩ := hash_ok hk' h0 h.pos h.small
  obtain ⟨s2, g1, g2, g3, g4⟩ := hashSet__ok stringKeys_ok (v := v) h' (k := bs) hk' h0 hr'
  refine ⟨s2, ?_, g2, ?_, by omega⟩
  · simp only [hashSet, hsz, ok_bind, St.cdr_ok hfree, hcell, e1, e2]
    exact g1
  · have g3' : Frame (· = bucketCell s1 t n bs) s1 s2 := g3
    rw [hb] at g3'
    exact hx.frame.trans g3'

theorem hashqSet_ok {name : Int → List Byte} {t key v : Int} {n : Nat} {H : List (Int × Int)}
    (h : IsTable (symbolKeys name) s t n H) (hk : HasText s key (name key))
    (hkt : (s.cell key).tag = .symbol ∨ (s.cell key).tag = .special) (h0 : 0 ≤ hashSum (name key)) (hr : Room s 4) :
    ∃ s', hashqSet s t key v = ok (v, s') ∧ IsTable (symbolKeys name) s' t n ((key, v) :: H) ∧
      Frame (· = bucketCell s t n (name key)) s s' ∧ s'.free ≤ s.free + 4 := by
  have hx := push_ext s { tag := .number, car := 0, cdr := (n : Int) }
  have hsz := tableSize_ok h (hr.mono (by decide))
  have h' := h.ext (symbolKeys_ok name) hx
  have hk' := hk.ext hx
  have hkt' : ((s.push { tag := .number, car := 0, cdr := (n : Int) }).cell key).tag = .symbol ∨
    ((s.push { tag := .number, car := 0, cdr := (n : Int) }).cell key).tag = .special := by
      rw [hx.same _ hk.valid.2 id]; exact hkt
  have hfree := hr.free_valid { tag := .number, car := 0, cdr := (n : Int) }
  have hr' : Room (s.push { tag := .number, car := 0, cdr := (n : Int) }) 3 := hr.step hx (by simp; omega)
  have hb := bucketCell_ext h hx (name key)
  have hfr : (s.push { tag := .number, car := 0, cdr := (n : Int) }).free = s.free + 1 := by simp
  generalize hg : s.push { tag := .number, car := 0, cdr := (n : Int) } = s1 at *
  have hcell : s1.cell s.free = { tag := .number, car := 0, cdr := (n : Int) } := by rw [← hg]; simp
  obtain ⟨hv, e1, e2⟩ := hashq_ok hk' hkt' h0 h.pos h.small
  obtain ⟨s2, g1, g2, g3, g4⟩ := hashSet__ok (symbolKeys_ok name) (v := v) h' (k := key) ⟨rfl, hk', hkt'⟩ h0 hr'
  refine ⟨s2, ?_, g2, ?_, by omega⟩
  · simp only [hashqSet, hsz, ok_bind, St.cdr_ok hfree, hcell, e1, e2]
    exact g1
  · have g3' : Frame (· = bucketCell s1 t n (name key)) s1 s2 := g3
    rw [hb] at g3'
    exact hx.frame.trans g3'

/-! ### make-hash-table -/

theorem cons_step {k : Int} (h : Room s (k + 1)) (hk : 0 ≤ k) (a d : Int) :
    ∃ p s', cons s a d = ok (p, s') ∧ Ext s s' ∧ s'.free = s.free + 1 ∧ s'.Valid p ∧ p ≠ c_nil ∧
      s'.cell p = { tag := .pair, car := a, cdr := d } ∧ Room s' k ∧ p = s.free := by
  refine ⟨_, _, cons_ok (h.mono (by omega)) a d, push_ext .., by simp, h.free_valid _, ?_, by simp, h.push _, rfl⟩
  have := h.base; simp only [c_nil, c_symbol_max] at *; omega

theorem fixed_val {a : Int} (hf : Fixed s) (hb : c_symbol_max ≤ s.free) (h1 : c_nil ≤ a) (h2 : a < c_symbol_max) :
    ValAt s a (.obj a) := by
  refine ⟨rfl, ⟨by simp only [c_nil] at h1; omega, by omega⟩, ?_⟩
  rw [hf a h1 h2]
  split
  · exact (by decide : Solid .special)
  · exact (by decide : Solid .symbol)

theorem Spec.Fixed.ext (h : Fixed s) (hb : c_symbol_max ≤ s.free) (hf : Ext s s') : Fixed s' := by
  intro a h1 h2
  rw [hf.same a (by omega) id]
  exact h a h1 h2

/-- A list with one more element. -/
theorem cons_vals {k : Int} {l e : Int} {ws : List Val} {w : Val} (h : Room s (k + 1)) (hk : 0 ≤ k)
    (hl : ListOf s (ValAt s) l ws) (he : ValAt s e w) :
    ∃ p s', cons s e l = ok (p, s') ∧ Ext s s' ∧ s'.free = s.free + 1 ∧ Room s' k ∧ ListOf s' (ValAt s') p (w :: ws) ∧
      ValAt s' p (.obj p) ∧ p = s.free := by
  obtain ⟨p, s', h1, h2, h3, h4, h5, h6, h7, h8⟩ := cons_step h hk e l
  refine ⟨p, s', h1, h2, h3, h7, .cons h5 h4 (by rw [h6]) (by rw [h6]; exact he.ext h2)
    (by rw [h6]; exact hl.ext h2 (fun _ _ h => h.ext h2)), ⟨rfl, h4, ?_⟩, h8⟩
  rw [h6]; exact (by decide : Solid .pair)

theorem makeHashqType_ok {fuel : Nat} (hr : Room s 13) (hfix : Fixed s) (hf : 3 ≤ fuel) :
    ∃ x s', makeHashqType s fuel = ok (x, s') ∧ ValAt s' x (.obj x) ∧ Ext s s' ∧ s'.free ≤ s.free + 13 ∧ (s'.cell x).tag = .struct := by
  have hb := hr.base
  obtain ⟨p1, s1, a1, a2, a3, a4, a5, a6, -⟩ := cons_vals (k := 12) hr (by decide) (.nil (s := s) (R := ValAt s))
    (fixed_val hfix hb (a := c_symbol_buckets) (by decide) (by decide))
  have f1 := hfix.ext hb a2
  obtain ⟨p2, s2, b1, b2, b3, b4, b5, b6, -⟩ := cons_vals (k := 11) a4 (by decide) a5
    (fixed_val f1 a4.base (a := c_symbol_size) (by decide) (by decide))
  obtain ⟨p3, s3, c1, c2, c3, c4, c5, c6, -⟩ := cons_vals (k := 10) b4 (by decide) (.nil (s := s2) (R := ValAt s2)) b6
  have f3 := (f1.ext a4.base b2).ext b4.base c2
  obtain ⟨p4, s4, d1, d2, d3, d4, d5, d6, -⟩ := cons_vals (k := 9) c4 (by decide) c5
    (fixed_val f3 c4.base (a := c_symbol_hashq_table) (by decide) (by decide))
  have f4 := f3.ext c4.base d2
  obtain ⟨x, s5, e1, e2, e3, e4, e5, e6⟩ := makeStruct_ok (fuel := fuel) (s := s4) (ty := c_symbol_record_type) (pr := c_unspecified)
    (d4.mono (by simp)) (fixed_val f4 d4.base (by decide) (by decide)) (fixed_val f4 d4.base (by decide) (by decide)) d5
    (by simp; omega)
  have hx : Ext s s5 := (((a2.trans b2).trans c2).trans d2).trans e3
  refine ⟨x, s5, ?_, ⟨rfl, e2.valid, ?_⟩, hx, ?_, e2.tag⟩
  · simp only [makeHashqType, a1, b1, c1, d1, e1, ok_bind]
  · rw [e2.tag]; exact (by decide : Solid .struct)
  · simp only [List.length_cons, List.length_nil] at e6; omega

theorem makeHashTable_ok (hK : KeysOk K) {fuel : Nat} {m : Int} {n : Nat} (hm : n = if m = 0 then 100 else m) (hn : 0 < n)
    (hs : n ≤ 2147483647) (hr : Room s (2 * n + 32)) (hfix : Fixed s) (hf : 4 ≤ fuel) :
    ∃ t s', makeHashTable s fuel m = ok (t, s') ∧ IsTable K s' t n [] ∧ Ext s s' ∧ s'.free ≤ s.free + 2 * n + 32 ∧
      s.free ≤ t ∧ s.free ≤ (s'.cell t).cdr ∧ s.free ≤ (s'.cell (bucketsOf s' t)).cdr := by
  have hb := hr.base
  obtain ⟨ty, s1, a1, a2, a3, a4, -⟩ := makeHashqType_ok (fuel := fuel) (hr.mono (by omega)) hfix (by omega)
  have f1 := hfix.ext hb a3
  have r1 : Room s1 (2 * n + 19) := hr.step a3 (by omega)
  obtain ⟨bv, s2, b1, b2, b3, b4, b5, b6⟩ := makeVector_ok (s := s1) (k := n) (e := c_unspecified) (r1.mono (by omega))
    (fixed_val f1 r1.base (by decide) (by decide))
  have f2 := f1.ext r1.base b3
  have r2 : Room s2 18 := r1.step b3 (by omega)
  have hbv : ValAt s2 bv (.obj bv) := ⟨rfl, b2.valid, by rw [b2.tag]; exact (by decide : Solid .vector)⟩
  obtain ⟨p1, s3, c1, c2, c3, c4, c5, c6, -⟩ := cons_vals (k := 17) r2 (by decide) (.nil (s := s2) (R := ValAt s2)) hbv
  have n1 := makeNumber_ok (c4.mono (by decide)) (n : Int)
  have n2 := push_ext s3 { tag := .number, car := 0, cdr := (n : Int) }
  have n3 := c4.push_isNum (n : Int)
  have n4 : Room (s3.push { tag := .number, car := 0, cdr := (n : Int) }) 16 := c4.push _
  have n5 : (s3.push { tag := .number, car := 0, cdr := (n : Int) }).free = s3.free + 1 := by simp
  generalize s3.push { tag := .number, car := 0, cdr := (n : Int) } = s4 at *
  obtain ⟨p2, s5, d1, d2, d3, d4, d5, d6, -⟩ := cons_vals (k := 15) n4 (by decide) (c5.ext n2 (fun _ _ h => h.ext n2))
    (w := .num n) n3
  have f5 := ((f2.ext r2.base c2).ext c4.base n2).ext n4.base d2
  obtain ⟨p3, s6, e1, e2, e3, e4, e5, e6, -⟩ := cons_vals (k := 14) d4 (by decide) d5
    (fixed_val f5 d4.base (a := c_symbol_hashq_table) (by decide) (by decide))
  have f6 := f5.ext d4.base e2
  have hx6 : Ext s2 s6 := ((c2.trans n2).trans d2).trans e2
  have hx16 : Ext s1 s6 := b3.trans hx6
  obtain ⟨t, s7, g1, g2, g3, g4, g5, g6⟩ := makeStruct_ok (fuel := fuel) (s := s6) (ty := ty) (pr := c_unspecified)
    (e4.mono (by simp)) (a2.ext hx16) (fixed_val f6 e4.base (by decide) (by decide)) e5 (by simp; omega)
  have hx7 : Ext s2 s7 := hx6.trans g3
  have hxs : Ext s s7 := (a3.trans b3).trans hx7
  have f7 := f6.ext e4.base g3
  have hbase7 : c_symbol_max ≤ s7.free := Int.le_trans hb hxs.le
  have hE4 := g2.entry 4 (.obj bv) (by simp)
  have hE3 := g2.entry 3 (.num n) (by simp)
  have heb : bucketsOf s7 t = bv := hE4.2.2.1
  have hvec := b2.ext hx7
  have hvc : s7.cell bv = s2.cell bv := hx7.same _ b2.valid.2 id
  have hbe : ∀ i : Nat, i < n → EntryAt s7 ((s7.cell bv).cdr + i) (.obj c_unspecified) := fun i hi =>
    hvec.entry i _ (by simp [hi])
  have hbvf : bv < s2.free := b2.valid.2
  have hbvf7 := hx6.le
  refine ⟨t, s7, ?_, ?_, hxs, ?_, ?_⟩
  · have : makeHashTable s fuel m = (do
        let (type, s) ← makeHashqType s fuel
        let (buckets, s) ← makeVector s n c_unspecified
        let (v, s) ← cons s buckets c_nil
        let (k, s) ← makeNumber s n
        let (v, s) ← cons s k v
        let (v, s) ← cons s c_symbol_hashq_table v
        makeStruct s fuel type v c_unspecified) := by rw [hm]; rfl
    rw [this]
    simp only [a1, b1, c1, n1, d1, e1, g1, ok_bind]
  · refine ⟨g2.valid, g2.tag, by rw [g2.length]; rfl, hE3, hE4.1, hE4.2.1, by rw [heb]; exact hvec.valid,
      by rw [heb]; exact hvec.tag, by rw [heb, hvec.length]; simp, hn, hs, fun i hi => ?_, fun i hi => ?_, fun i hi => ?_,
      fun i hi => ?_, by simp, ?_, ?_⟩
    · rw [heb]
      have h1 := hbe i hi
      rw [hvc, b5, g5]
      have h2 := (b2.entry i (.obj c_unspecified) (by simp [hi])).valid.2
      rw [b5] at h2
      omega
    · rw [heb]; exact (hbe i hi).1
    · rw [heb]; exact (hbe i hi).2.1
    · rw [heb]; unfold Bucket; rw [if_pos (by simp)]; exact (hbe i hi).2.2.1
    · exact ⟨⟨by decide, by simp only [c_f, c_symbol_max] at *; omega⟩, ⟨by decide, by simp only [c_unspecified, c_symbol_max] at *; omega⟩⟩
    · exact ⟨by rw [f7 c_f (by decide) (by decide)]; decide, by rw [f7 c_unspecified (by decide) (by decide)]; decide⟩
  · simp only [List.length_cons, List.length_nil] at g6; omega
  · have := a3.le; have := b3.le; have := hx6.le
    refine ⟨by omega, by omega, ?_⟩
    rw [heb, hvc, b5]; omega

end Mes
