import Verif.Model.CExec
import Verif.Spec.Path
import Verif.Proof.Environ
import Verif.Props.LibcString
/- Lemmas about `search_path`. -/
namespace Mes.C
open Res Spec

theorem _root_.Mes.Spec.SameOutside.refl (a n : Nat) (m : Mem) : SameOutside a n m m := ⟨rfl, fun _ _ => rfl⟩

theorem _root_.Mes.Spec.SameOutside.trans {a n : Nat} {m1 m2 m3 : Mem} (h : SameOutside a n m1 m2) (g : SameOutside a n m2 m3) : SameOutside a n m1 m3 :=
  ⟨g.1.trans h.1, fun i hi => (g.2 i hi).trans (h.2 i hi)⟩

theorem _root_.Mes.Spec.SameOutside.patch {a n : Nat} {m : Mem} (p : Nat) (l : List Byte) (h1 : a ≤ p) (h2 : p + l.length ≤ a + n) (h3 : a + n ≤ m.length) :
    SameOutside a n m (patch m p l) :=
  ⟨length_patch _ _ _ (by omega), fun i hi => by rw [getElem?_patch _ _ _ _ (by omega), if_neg (by omega)]⟩

theorem _root_.Mes.Spec.SameOutside.cstr {a n p : Nat} {m m' : Mem} {s : List Byte} (h : SameOutside a n m m') (hs : CStr m p s)
    (hd : Disjoint a n p (s.length + 1)) : CStr m' p s := by
  refine ⟨fun i hi => ?_, hs.2⟩
  rw [← hs.1 i hi]
  simp only [List.length_append, List.length_cons, List.length_nil] at hi
  exact h.2 _ (by unfold Disjoint at hd; omega)

theorem cText_ok {m : Mem} : ∀ (s : List Byte) (p fuel : Nat), CStr m p s → s.length < fuel → cText m fuel p = ok s
  | _, _, 0, _, h => absurd h (by omega)
  | [], p, fuel + 1, hs, _ => by simp [cText, rd_ok hs.nil]
  | b :: s, p, fuel + 1, hs, h => by
    have ih := cText_ok s (p + 1) fuel hs.tail (by simpa using h)
    simp [cText, rd_ok hs.head.1, hs.head.2, ih]

/-- The first directory of a text. -/
theorem pathEnd_ok {m : Mem} {path : Nat} {d rest : List Byte} (hd : DirName d) (hr : rest = [] ∨ ∃ r, rest = 58 :: r)
    (h : CStr m path (d ++ rest)) : pathEnd m path = ok (path + d.length) := by
  have hn : d.findIdx? (fun b => sc b = 58) = none := by
    rw [List.findIdx?_eq_none_iff]
    intro b hb
    have : sc b ≠ sc 58 := fun e => (hd b hb).1 (sc_inj e)
    exact decide_eq_false this
  unfold pathEnd
  rw [strchr_ne h 58 (by decide), List.findIdx?_append, hn]
  rcases hr with rfl | ⟨r, rfl⟩
  · rw [strchr_zero h]
    simp
  · rw [List.findIdx?_cons, if_pos (by decide)]
    simp

theorem set_patch (m : Mem) (a : Nat) (b : Byte) (h : a < m.length) : m.set a b = patch m a [b] := by
  apply List.ext_getElem?
  intro i
  rw [getElem?_set' _ _ _ _ h, getElem?_patch _ _ _ _ (by simp only [List.length_cons, List.length_nil]; omega)]
  by_cases hi : i = a
  · subst hi
    rw [if_pos rfl, if_pos ⟨by omega, by simp⟩, Nat.sub_self]
    rfl
  · rw [if_neg hi, if_neg (by simp only [List.length_cons, List.length_nil]; omega)]

theorem strcat_in {m : Mem} {buf n src : Nat} {t s : List Byte} (hb : buf + n ≤ m.length) (ht : CStr m buf t) (hs : CStr m src s)
    (hl : t.length + s.length < n) (hd : Disjoint buf n src (s.length + 1)) :
    ∃ m', strcat m buf src = ok (m', buf) ∧ SameOutside buf n m m' ∧ CStr m' buf (t ++ s) := by
  have hr : buf + t.length + (s.length + 1) ≤ m.length := by omega
  have hd' : Disjoint (buf + t.length) (s.length + 1) src (s.length + 1) := by unfold Disjoint at *; omega
  obtain ⟨m', h1, h2⟩ := C41_strcat_result m buf src t s ht hs hr hd'
  refine ⟨m', h1, ?_, h2⟩
  have h3 := C41_strcat m buf src t s ht hs hr hd'
  rw [h1] at h3
  cases h3
  exact .patch _ _ (by omega) (by simp only [List.length_append, List.length_cons, List.length_nil]; omega) hb

/-- The name that is tried. -/
theorem pathName_ok {m : Mem} {buf slash file path : Nat} {d rest f : List Byte} (hb : buf + 256 ≤ m.length)
    (h : CStr m path (d ++ rest)) (hs : CStr m slash [47]) (hf : CStr m file f) (hdp : Disjoint buf 256 path ((d ++ rest).length + 1))
    (hds : Disjoint buf 256 slash 2) (hdf : Disjoint buf 256 file (f.length + 1)) (hl : d.length + 1 + f.length < 256) :
    ∃ m', pathName buf slash file m path (path + d.length) = ok m' ∧ SameOutside buf 256 m m' ∧ CStr m' buf (d ++ 47 :: f) := by
  have hd0 : ∀ b ∈ d, b ≠ 0 := fun b hb => h.2 b (List.mem_append_left _ hb)
  have e1 := C41_strncpy m buf path d.length (d ++ rest) h (by omega) (by unfold Disjoint at *; omega)
  have el : d.length - (d ++ rest).length = 0 := by rw [List.length_append]; omega
  rw [el, List.replicate_zero, List.append_nil, List.take_left] at e1
  have s1 : SameOutside buf 256 m (patch m buf d) := .patch _ _ (by omega) (by omega) hb
  have a1 : At (patch m buf d) buf d := fun i hi => by
    rw [getElem?_patch _ _ _ _ (by omega), if_pos (by omega), Nat.add_sub_cancel_left]
  generalize patch m buf d = m1 at e1 s1 a1
  have s2 : SameOutside buf 256 m1 (m1.set (buf + d.length) 0) := by
    rw [set_patch _ _ _ (by rw [s1.1]; omega)]
    exact .patch _ _ (by omega) (by simp only [List.length_cons, List.length_nil]; omega) (by rw [s1.1]; omega)
  have c2 : CStr (m1.set (buf + d.length) 0) buf d := by
    refine ⟨fun i hi => ?_, hd0⟩
    rw [getElem?_set' _ _ _ _ (by rw [s1.1]; omega)]
    simp only [List.length_append, List.length_cons, List.length_nil] at hi
    by_cases hi' : i < d.length
    · rw [if_neg (by omega), a1 i hi', List.getElem?_append_left hi']
    · have : i = d.length := by omega
      subst this
      simp
  have e2 := wr_ok (m := m1) (a := buf + d.length) 0 (by rw [s1.1]; omega)
  generalize m1.set (buf + d.length) 0 = m2 at e2 s2 c2
  have t2 := s1.trans s2
  obtain ⟨m3, e3, s3, c3⟩ := strcat_in (by rw [t2.1]; exact hb) c2 (t2.cstr hs hds) (by simp only [List.length_cons, List.length_nil]; omega) hds
  have t3 := t2.trans s3
  obtain ⟨m4, e4, s4, c4⟩ := strcat_in (by rw [t3.1]; exact hb) c3 (t3.cstr hf hdf)
    (by simp only [List.length_append, List.length_cons, List.length_nil]; omega) hdf
  have t4 := t3.trans s4
  rw [List.append_assoc] at c4
  have hlen : (d ++ ([47] ++ f)).length < 256 := by simp only [List.length_append, List.length_cons, List.length_nil]; omega
  refine ⟨m4, ?_, t4, c4⟩
  have e5 := strlen_ok c4 (by unfold INT_MAX; omega)
  have r2 := rd_ok c2.rd_end
  unfold pathName
  rw [Nat.add_sub_cancel_left]
  simp only [e1, ok_bind, e2, r2, ne_eq, if_pos (show ¬ (0 : UInt8) = 47 by decide), e3, e4, e5]
  rw [ubUnless, if_pos (by omega), ubUnless, if_pos hlen]
  rfl

/-- One directory. -/
theorem search_step {access : List Byte → Bool} {m : Mem} {buf slash file path : Nat} {d rest f : List Byte} (fuel : Nat) (hb : buf + 256 ≤ m.length)
    (hd : DirName d) (hr : rest = [] ∨ ∃ r, rest = 58 :: r) (hne : d ++ rest ≠ [])
    (h : CStr m path (d ++ rest)) (hs : CStr m slash [47]) (hf : CStr m file f) (hdp : Disjoint buf 256 path ((d ++ rest).length + 1))
    (hds : Disjoint buf 256 slash 2) (hdf : Disjoint buf 256 file (f.length + 1)) (hl : d.length + 1 + f.length < 256) :
    ∃ m', SameOutside buf 256 m m' ∧ CStr m' buf (d ++ 47 :: f) ∧
      searchLoop access buf slash file (fuel + 1) m path =
        if access (d ++ 47 :: f) then ok (some buf, m') else searchLoop access buf slash file fuel m' (path + d.length + 1) := by
  obtain ⟨m', e, s', c⟩ := pathName_ok hb h hs hf hdp hds hdf hl
  refine ⟨m', s', c, ?_⟩
  have hl' : (d ++ 47 :: f).length < m'.length + 1 := by have := c.lt; omega
  obtain ⟨b, t, e0⟩ := List.exists_cons_of_ne_nil hne
  have hh := h
  rw [e0] at hh
  rw [searchLoop]
  simp only [rd_ok hh.head.1, ok_bind, if_neg hh.head.2, pathEnd_ok hd hr h, e, cText_ok _ _ _ c hl']

theorem pathText_cons (d : List Byte) (ds : List (List Byte)) : ∃ rest, pathText (d :: ds) = d ++ rest ∧
    (ds = [] ∧ rest = [] ∨ ds ≠ [] ∧ rest = 58 :: pathText ds) := by
  cases ds with
  | nil => exact ⟨[], by simp [pathText], .inl ⟨rfl, rfl⟩⟩
  | cons x xs => exact ⟨58 :: pathText (x :: xs), rfl, .inr ⟨by simp, rfl⟩⟩

/-- What the loop does with a list of directories: it finds the first name, or goes on behind the text. -/
theorem search_all {access : List Byte → Bool} {buf slash file : Nat} {f : List Byte} (hds : Disjoint buf 256 slash 2)
    (hdf : Disjoint buf 256 file (f.length + 1)) : ∀ (ds : List (List Byte)) (m : Mem) (path fuel : Nat), buf + 256 ≤ m.length → ds ≠ [] →
    (∀ d ∈ ds, DirName d ∧ d ≠ [] ∧ d.length + 1 + f.length < 256) → CStr m path (pathText ds) → CStr m slash [47] → CStr m file f →
    Disjoint buf 256 path ((pathText ds).length + 1) → (pathText ds).length < fuel →
    ∃ m' fuel', SameOutside buf 256 m m' ∧ fuel ≤ fuel' + (pathText ds).length ∧ match firstProgram access ds f with
      | some s => CStr m' buf s ∧ searchLoop access buf slash file fuel m path = ok (some buf, m')
      | none => searchLoop access buf slash file fuel m path = searchLoop access buf slash file fuel' m' (path + (pathText ds).length + 1)
  | [], _, _, _, _, h, _, _, _, _, _, _ => absurd rfl h
  | _ :: _, _, _, 0, _, _, _, _, _, _, _, h => absurd h (by omega)
  | d :: ds, m, path, fuel + 1, hb, _, hd, hp, hs, hf, hdp, hfu => by
    obtain ⟨rest, e, hr⟩ := pathText_cons d ds
    rw [e] at hp hdp hfu ⊢
    obtain ⟨h1, h2, h3⟩ := hd d (by simp)
    have hne : d ++ rest ≠ [] := by simp [h2]
    obtain ⟨m1, s1, c1, e1⟩ := search_step (access := access) fuel hb h1 (by rcases hr with ⟨-, h⟩ | ⟨-, h⟩ <;> simp [h]) hne hp hs hf hdp hds hdf h3
    rw [e1]
    have hpos : 0 < d.length := List.length_pos_iff.2 h2
    have ed : inDirectory d f = d ++ 47 :: f := by rw [inDirectory, if_neg h2]
    have ef : firstProgram access (d :: ds) f = if access (d ++ 47 :: f) then some (d ++ 47 :: f) else firstProgram access ds f := by
      simp only [firstProgram, List.map_cons, List.find?_cons, ed]
      cases access (d ++ 47 :: f) <;> rfl
    rw [ef]
    cases ha : access (d ++ 47 :: f) with
    | true => exact ⟨m1, fuel + 1, s1, by omega, c1, by simp⟩
    | false =>
      simp only [Bool.false_eq_true, if_false]
      rcases hr with ⟨rfl, rfl⟩ | ⟨hn, rfl⟩
      · refine ⟨m1, fuel, s1, by rw [List.append_nil]; omega, ?_⟩
        simp [firstProgram]
      · simp only [List.length_append, List.length_cons] at hfu hdp ⊢
        have hp' : CStr m1 (path + d.length + 1) (pathText ds) := by
          have h4 : CStr m (path + d.length + 1) (pathText ds) := by
            have : d ++ 58 :: pathText ds = (d ++ [58]) ++ pathText ds := by simp
            rw [this] at hp
            have := hp.suffix
            rwa [List.length_append, List.length_singleton, ← Nat.add_assoc] at this
          exact s1.cstr h4 (by unfold Disjoint at *; omega)
        obtain ⟨m2, fuel2, s2, g1, g2⟩ := search_all hds hdf ds m1 (path + d.length + 1) fuel (by rw [s1.1]; exact hb) hn
          (fun x hx => hd x (by simp [hx])) hp' (s1.cstr hs hds) (s1.cstr hf hdf) (by unfold Disjoint at *; omega) (by omega)
        refine ⟨m2, fuel2, s1.trans s2, by omega, ?_⟩
        rwa [show path + (d.length + ((pathText ds).length + 1)) + 1 = path + d.length + 1 + (pathText ds).length + 1 by omega]

/-- `getenv`, with the place of the value. -/
theorem getenv_place {m : Mem} {w : Words} {es : List (List Byte)} {k v : List Byte} {a b : Nat} (he : Environ m w es b) (hk : CStr m a k)
    (hl : k.length ≤ INT_MAX) (hv : envValue k es = some v) : ∃ q, getenv m w a = ok (some q) ∧ CStr m q v ∧ q + v.length < b := by
  obtain ⟨ps, rest, rfl, h⟩ := environ_iff.1 he
  have hf := envFind_ok (rest := rest) hk ps es [] ((ps ++ 0 :: rest).length + 1) h (by simp; omega)
  simp only [List.nil_append, List.length_nil, Nat.zero_add] at hf
  unfold getenv
  rw [strlen_ok hk hl]
  simp only [ok_bind, hf]
  rcases find_cases k es with ⟨-, h1, h2⟩ | ⟨es1, u, es2, rfl, -, h1, h2⟩
  · rw [h2] at hv
    cases hv
  · rw [h2] at hv
    cases hv
    rw [h1]
    obtain ⟨ps1, p, ps2, rfl, h3, -, h5, -⟩ := h.split
    rw [← h3, List.append_assoc, List.cons_append, get_at]
    simp only [ok_bind, if_neg h5.1]
    have h7 := h5.2.2
    refine ⟨_, rfl, ?_⟩
    have : k ++ 61 :: v = (k ++ [61]) ++ v := by simp
    rw [this] at h5
    have h6 := h5.2.1.suffix
    rw [List.length_append, List.length_singleton, ← Nat.add_assoc] at h6
    refine ⟨h6, ?_⟩
    simp only [List.length_append, List.length_cons] at h7
    omega

end Mes.C
