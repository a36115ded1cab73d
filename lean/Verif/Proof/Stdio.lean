import Verif.Spec.Stdio
import Verif.Proof.Stream
/-
Lemmas about streams.
-/
namespace Mes.C
open Res Spec

variable {g : Chunks} {s : Stream} {content l : List Byte} {pos : Nat} {pushed : Option Byte} {m : Mem}

theorem toByte_toNat (b : Byte) : toByte (b.toNat : Int) = b := by
  unfold toByte
  have := b.toNat_lt
  rw [show ((b.toNat : Int) % 256).toNat = b.toNat by omega]
  simp

theorem sc_unsigned (b : Byte) : (if sc b < 0 then sc b + 256 else sc b) = (b.toNat : Int) := by
  have := b.toNat_lt
  unfold sc
  split <;> split <;> omega

/-- The next character. -/
theorem fgetc_ok (hg : NoErrors g) (h : Ahead s content l) :
    ∃ s', s'.back = -1 ∧ match l with
      | [] => fgetc g s = ok (-1, s') ∧ Ahead s' content []
      | b :: l => fgetc g s = ok ((b.toNat : Int), s') ∧ Ahead s' content l := by
  obtain ⟨pos, pushed, ⟨h1, h2⟩, rfl⟩ := h
  cases pushed with
  | some b =>
    refine ⟨{ s with back := -1 }, rfl, ?_⟩
    show fgetc g s = ok ((b.toNat : Int), { s with back := -1 }) ∧ Ahead { s with back := -1 } content (content.drop pos)
    refine ⟨?_, pos, none, ⟨h1, rfl⟩, by simp [input]⟩
    simp only at h2
    unfold fgetc
    rw [if_pos (by rw [h2]; omega), h2]
  | none =>
    simp only at h2
    obtain ⟨n, f', m', e1, e2, e3, e4, -, -⟩ := read_ok (m := [0]) (p := 0) (size := 1) hg h1 (by simp)
    refine ⟨{ s with fd := f' }, h2, ?_⟩
    have hn := e2.le
    have hun : fgetc g s = (do
        let c ← m'.rd 0
        let i := sc c
        if (n : Int) < 1 then ok (-1, { s with fd := f' }) else ok (if i < 0 then i + 256 else i, { s with fd := f' })) := by
      unfold fgetc
      rw [if_neg (by rw [h2]; omega), e1, ok_bind]
      obtain ⟨c, hc⟩ : ∃ c, m'.rd 0 = ok c := by
        have hl := e3.len
        match m', hl with
        | [c], _ => exact ⟨c, rfl⟩
      by_cases h0 : (n : Int) < 1
      · simp only [if_pos h0, hc, ok_bind]
      · simp only [if_neg h0, hc, ok_bind]
    by_cases h0 : n = 0
    · subst h0
      have hend : content.length ≤ pos := (e2.progress rfl).resolve_left (by omega)
      have : input content pos none = [] := by simp [input, List.drop_eq_nil_of_le hend]
      rw [this]
      have hm : m' = [0] := by
        have := e3.eq_patch (by simp [slice])
        rw [this]
        simp [slice, patch]
      refine ⟨?_, pos, none, ⟨e4, h2⟩, by rw [this]⟩
      rw [hun, hm]
      rfl
    · have hn1 : n = 1 := by omega
      subst hn1
      have hin : pos + 1 ≤ content.length := e2.inside.resolve_left (by omega)
      obtain ⟨b, hb⟩ : ∃ b, content[pos]? = some b := ⟨_, List.getElem?_eq_getElem (by omega)⟩
      have hd : content.drop pos = b :: content.drop (pos + 1) := by
        rw [List.drop_eq_getElem_cons (by omega)]
        congr 1
        rw [List.getElem?_eq_getElem (by omega)] at hb
        injection hb
      have : input content pos none = b :: content.drop (pos + 1) := by simp [input, hd]
      rw [this]
      have hm : m'[0]? = some b := by
        have hs : slice content pos 1 = [b] := by simp [slice, hd]
        rw [hs] at e3
        simpa using e3.inside 0 (by simp)
      refine ⟨?_, pos + 1, none, ⟨e4, h2⟩, by simp [input]⟩
      rw [hun, rd_ok hm, ok_bind]
      simp only [sc_unsigned]
      rw [if_neg (by omega)]

theorem lineOf_length (n : Nat) (l : List Byte) : (lineOf n l).length ≤ n := by
  induction n generalizing l with
  | zero => cases l <;> simp [lineOf]
  | succ n ih =>
    cases l with
    | nil => simp [lineOf]
    | cons b l =>
      unfold lineOf
      split
      · simp
      · have := ih l
        simp only [List.length_cons]
        omega

theorem fgetsLoop_ok (hg : NoErrors g) : ∀ (n : Nat) (s : Stream) (l : List Byte) (m : Mem) (p : Nat) (c : Int),
    Ahead s content l → c ≠ 10 → p + n ≤ m.length →
    ∃ s' m' c', fgetsLoop g n s m p c = ok (s', m', p + (lineOf n l).length, c') ∧ Patched m m' p (lineOf n l) ∧
      Ahead s' content (l.drop (lineOf n l).length) ∧ (lineOf n l = [] → n ≠ 0 → c' = -1) ∧ (s.back = -1 ∨ lineOf n l ≠ [] → s'.back = -1) := by
  intro n
  induction n with
  | zero =>
    intro s l m p c h hc hp
    exact ⟨s, m, c, by simp [fgetsLoop, lineOf], .nil m p, by simpa [lineOf] using h, by simp, by simp [lineOf]⟩
  | succ n ih =>
    intro s l m p c h hc hp
    obtain ⟨s1, hb, h1⟩ := fgetc_ok hg h
    cases l with
    | nil =>
      refine ⟨s1, m, -1, ?_, .nil m p, h1.2, by simp, fun _ => hb⟩
      unfold fgetsLoop
      rw [if_neg hc, h1.1, ok_bind]
      rfl
    | cons b l =>
      have hw : m.wr p (toByte (b.toNat : Int)) = ok (m.set p b) := by
        rw [toByte_toNat]
        unfold Mem.wr
        rw [if_pos (by omega)]
      have hun : fgetsLoop g (n + 1) s m p c = fgetsLoop g n s1 (m.set p b) (p + 1) (b.toNat : Int) := by
        conv => lhs; unfold fgetsLoop
        rw [if_neg hc, h1.1, ok_bind]
        simp only
        rw [if_neg (by omega), hw, ok_bind]
      rw [hun]
      by_cases h10 : b = 10
      · subst h10
        have e : lineOf (n + 1) (10 :: l) = [10] := by simp [lineOf]
        rw [e]
        refine ⟨s1, m.set p 10, 10, ?_, .cons (by omega) (.nil _ _), h1.2, by simp, fun _ => hb⟩
        cases n with
        | zero => rfl
        | succ n => unfold fgetsLoop; rw [if_pos (by rfl)]; rfl
      · have e : lineOf (n + 1) (b :: l) = b :: lineOf n l := by simp [lineOf, h10]
        rw [e]
        have hne : (b.toNat : Int) ≠ 10 := by
          intro q
          apply h10
          apply UInt8.toNat_inj.mp
          show b.toNat = 10
          omega
        obtain ⟨s', m', c', e1, e2, e3, -, e5⟩ := ih s1 l (m.set p b) (p + 1) (b.toNat : Int) h1.2 hne (by simp; omega)
        refine ⟨s', m', c', by rw [e1]; simp only [List.length_cons]; congr 4; omega, .cons (by omega) e2, e3, by simp, fun _ => ?_⟩
        exact e5 (.inl hb)

theorem fgets_ok (hg : NoErrors g) (h : Ahead s content l) {a count : Nat} (hc : 2 ≤ count) (hp : a + count ≤ m.length) :
    ∃ s', (s.back = -1 ∨ l ≠ [] → s'.back = -1) ∧ Ahead s' content (l.drop (lineOf (count - 1) l).length) ∧
      if l = [] then fgets g m a count s = ok (none, s', m)
      else ∃ m', fgets g m a count s = ok (some a, s', m') ∧ Patched m m' a (lineOf (count - 1) l ++ [0]) := by
  obtain ⟨s', m', c', e1, e2, e3, e4, e5⟩ := fgetsLoop_ok hg (count - 1) s l m a 0 h (by omega) (by omega)
  obtain ⟨n, hn⟩ : ∃ n, count - 1 = n + 1 := ⟨count - 2, by omega⟩
  have hlen := lineOf_length (count - 1) l
  have hne : l ≠ [] → lineOf (count - 1) l ≠ [] := by
    rw [hn]
    cases l with
    | nil => simp
    | cons b l =>
      intro _
      unfold lineOf
      split <;> simp
  refine ⟨s', ?_, e3, ?_⟩
  · rintro (hb | hb)
    · exact e5 (.inl hb)
    · exact e5 (.inr (hne hb))
  · unfold fgets
    rw [e1, ok_bind]
    simp only
    by_cases hl : l = []
    · subst hl
      have hz : lineOf (count - 1) [] = [] := by rw [hn]; rfl
      rw [hz] at e2
      rw [if_pos rfl, if_pos ⟨by rw [hz]; rfl, .inl (e4 hz (by omega))⟩]
      have : m' = m := by
        have := e2.eq_patch (by simp; omega)
        rw [this]
        simp [patch]
      rw [this]
    · rw [if_neg hl]
      have hpos : 0 < (lineOf (count - 1) l).length := List.length_pos_iff.mpr (hne hl)
      rw [if_neg (by omega)]
      have hw : m'.wr (a + (lineOf (count - 1) l).length) 0 = ok (m'.set (a + (lineOf (count - 1) l).length) 0) := by
        unfold Mem.wr
        rw [if_pos (by rw [e2.len]; omega)]
      rw [hw, ok_bind]
      exact ⟨_, rfl, e2.append (.cons (by rw [e2.len]; omega) (.nil _ _))⟩

theorem getAll_ok (hg : NoErrors g) : ∀ (l : List Byte) (s : Stream) (fuel : Nat), Ahead s content l → l.length < fuel →
    ∃ s', getAll g fuel s = ok (l.map (fun b => (b.toNat : Int)), s') ∧ Ahead s' content [] ∧ s'.back = -1 := by
  intro l
  induction l with
  | nil =>
    intro s fuel h hf
    obtain ⟨fuel, rfl⟩ : ∃ f, fuel = f + 1 := ⟨fuel - 1, by omega⟩
    obtain ⟨s1, hb, h1, h2⟩ := fgetc_ok hg h
    refine ⟨s1, ?_, h2, hb⟩
    unfold getAll
    rw [h1, ok_bind]
    rfl
  | cons b l ih =>
    intro s fuel h hf
    simp only [List.length_cons] at hf
    obtain ⟨fuel, rfl⟩ : ∃ f, fuel = f + 1 := ⟨fuel - 1, by omega⟩
    obtain ⟨s1, hb, h1, h2⟩ := fgetc_ok hg h
    obtain ⟨s2, h3, h4, h5⟩ := ih s1 fuel h2 (by omega)
    refine ⟨s2, ?_, h4, h5⟩
    unfold getAll
    rw [h1, ok_bind]
    simp only
    rw [if_neg (by omega), h3, ok_bind]
    rfl

theorem mem_lineOf {n : Nat} {b : Byte} (h : b ∈ lineOf n l) : b ∈ l := by
  induction n generalizing l with
  | zero => cases l <;> simp [lineOf] at h
  | succ n ih =>
    cases l with
    | nil => simp [lineOf] at h
    | cons c l =>
      unfold lineOf at h
      split at h
      · simp only [List.mem_singleton] at h
        simp [h]
      · rcases List.mem_cons.mp h with h | h
        · simp [h]
        · exact List.mem_cons_of_mem _ (ih h)

theorem takeWhile_string {str rest : List Byte} (h : ∀ b ∈ str, b ≠ 0) : (str ++ 0 :: rest).takeWhile (· ≠ 0) = str := by
  induction str with
  | nil => simp
  | cons b str ih =>
    have hb := h b (by simp)
    rw [List.cons_append, List.takeWhile_cons, if_pos (by simpa using hb), ih (fun c hc => h c (by simp [hc]))]

theorem getLines_ok (hg : NoErrors g) {a count : Nat} (hc : 2 ≤ count) : ∀ (k : Nat) (l : List Byte) (m : Mem) (s : Stream) (fuel : Nat),
    l.length = k → Ahead s content l → (∀ b ∈ l, b ≠ 0) → a + count ≤ m.length → l.length < fuel →
    ∃ ls s' m', getLines g a count fuel m s = ok (ls, s', m') ∧ Lines (count - 1) l ls ∧ Ahead s' content [] := by
  intro k
  induction k using Nat.strongRecOn with
  | ind k ih =>
    intro l m s fuel hk h hz hp hf
    obtain ⟨fuel, rfl⟩ : ∃ f, fuel = f + 1 := ⟨fuel - 1, by omega⟩
    obtain ⟨s1, -, h1, h2⟩ := fgets_ok hg h hc hp
    by_cases hl : l = []
    · subst hl
      rw [if_pos rfl] at h2
      refine ⟨[], s1, m, ?_, .nil, by simpa using h1⟩
      unfold getLines
      rw [h2, ok_bind]
    · rw [if_neg hl] at h2
      obtain ⟨m1, h2, h3⟩ := h2
      have hpos : 0 < (lineOf (count - 1) l).length := by
        obtain ⟨n, hn⟩ : ∃ n, count - 1 = n + 1 := ⟨count - 2, by omega⟩
        rw [hn]
        cases l with
        | nil => exact absurd rfl hl
        | cons b l => unfold lineOf; split <;> simp
      have hlpos : 0 < l.length := List.length_pos_iff.mpr hl
      obtain ⟨ls, s2, m2, h4, h5, h6⟩ := ih _ (by rw [← hk, List.length_drop]; omega) (l.drop (lineOf (count - 1) l).length) m1 s1 fuel rfl h1
        (fun b hb => hz b (List.mem_of_mem_drop hb)) (by rw [h3.len]; exact hp) (by rw [List.length_drop]; omega)
      refine ⟨_, s2, m2, ?_, .cons hl h5, h6⟩
      unfold getLines
      rw [h2, ok_bind]
      simp only
      rw [h4, ok_bind]
      have hlen := lineOf_length (count - 1) l
      have hd : m1.drop a = lineOf (count - 1) l ++ 0 :: (m1.drop (a + (lineOf (count - 1) l).length + 1)) := by
        apply List.ext_getElem?
        intro i
        rw [List.getElem?_drop]
        by_cases hi : i < (lineOf (count - 1) l).length + 1
        · rw [h3.inside i (by simp; omega)]
          by_cases hi' : i < (lineOf (count - 1) l).length
          · rw [List.getElem?_append_left hi', List.getElem?_append_left hi']
          · have : i = (lineOf (count - 1) l).length := by omega
            subst this
            simp
        · rw [List.getElem?_append_right (by omega)]
          obtain ⟨j, hj⟩ : ∃ j, i - (lineOf (count - 1) l).length = j + 1 := ⟨i - (lineOf (count - 1) l).length - 1, by omega⟩
          rw [hj, List.getElem?_cons_succ, List.getElem?_drop]
          congr 1
          omega
      rw [hd, takeWhile_string (fun b hb => hz b (mem_lineOf hb))]

theorem ungetc_ok (h : Ahead s content l) (hb : s.back = -1) (b : Byte) :
    ∃ s', ungetc (b.toNat : Int) s = ok ((b.toNat : Int), s') ∧ Ahead s' content (b :: l) := by
  obtain ⟨pos, pushed, ⟨h1, h2⟩, rfl⟩ := h
  have : pushed = none := by
    cases pushed with
    | none => rfl
    | some c => simp only at h2; rw [hb] at h2; omega
  subst this
  refine ⟨{ s with back := (b.toNat : Int) }, ?_, pos, some b, ⟨h1, rfl⟩, rfl⟩
  unfold ungetc
  rw [if_neg (by omega), if_neg (by omega)]

theorem feof_ok (hg : NoErrors g) (h : Ahead s content l) : ∃ s', feof g s = ok (decide (l = []), s') ∧ Ahead s' content l := by
  obtain ⟨s1, hb, h1⟩ := fgetc_ok hg h
  cases l with
  | nil =>
    refine ⟨s1, ?_, h1.2⟩
    unfold feof
    rw [h1.1, ok_bind]
    rfl
  | cons b l =>
    obtain ⟨s2, h2, h3⟩ := ungetc_ok h1.2 hb b
    refine ⟨s2, ?_, h3⟩
    unfold feof
    rw [h1.1, ok_bind]
    simp only
    rw [if_pos (by omega), h2, ok_bind]
    rfl

/-- What `read` gives, in terms of the bytes that are left. -/
theorem read_input (hg : NoErrors g) {f : Fd} (h : Sees f content pos) {p size : Nat} (hp : p + size ≤ m.length) :
    ∃ (n : Nat) (f' : Fd) (m' : Mem), read g f m p size = ok (((n : Nat) : Int), f', m') ∧ n ≤ size ∧ n ≤ (content.drop pos).length ∧
      (n = 0 → size = 0 ∨ content.drop pos = []) ∧
      Patched m m' p ((content.drop pos).take n) ∧ Sees f' content (pos + n) ∧ f'.max = f.max ∧
      (size ≤ f.max → n = min size (content.drop pos).length) := by
  obtain ⟨n, f', m', e1, e2, e3, e4, e5, e6⟩ := read_ok hg h hp
  refine ⟨n, f', m', e1, e2.le, ?_, ?_, e3, e4, e5, ?_⟩
  · rw [List.length_drop]
    rcases e2.inside with h0 | h0 <;> omega
  · intro h0
    rcases e2.progress h0 with h0 | h0
    · exact .inl h0
    · exact .inr (List.drop_eq_nil_of_le h0)
  · rw [List.length_drop]
    exact e6

theorem fread_ok (hg : NoErrors g) (h : Ahead s content l) {data size count : Nat} (hs : size ≠ 0) (hp : data + size * count ≤ m.length) :
    ∃ (k : Nat) (s' : Stream) (m' : Mem), fread g m data size count s = ok (k / size, s', m') ∧ k ≤ size * count ∧ k ≤ l.length ∧
      (k = 0 → count = 0 ∨ l = []) ∧ Patched m m' data (l.take k) ∧ Ahead s' content (l.drop k) ∧
      (size * count ≤ s.fd.max → k = min (size * count) l.length) := by
  by_cases hc : count = 0
  · subst hc
    refine ⟨0, s, m, ?_, by omega, by omega, fun _ => .inl rfl, .nil m data, by simpa using h, fun _ => by simp⟩
    unfold fread
    rw [if_pos (.inr rfl)]
    simp
  have hpos : 0 < size * count := Nat.mul_pos (by omega) (by omega)
  obtain ⟨pos, pushed, ⟨h1, h2⟩, rfl⟩ := h
  cases pushed with
  | none =>
    simp only at h2
    obtain ⟨n, f', m', e1, e2, e3, e4, e5, e6, e7, e8⟩ := read_input (m := m) (p := data) (size := size * count) hg h1 hp
    refine ⟨n, { s with fd := f' }, m', ?_, e2, by simpa [input] using e3, ?_, by simpa [input] using e5, ?_, by simpa [input] using e8⟩
    · unfold fread
      rw [if_neg (by simp [hs, hc])]
      simp only
      rw [if_neg (by rw [h2]; omega)]
      simp only [ok_bind]
      rw [if_pos (by omega), e1]
      simp only [ok_bind]
      rw [if_neg (show ¬ ((n : Int) < 0 ∧ True) by omega)]
      by_cases hn : n = 0
      · subst hn; simp
      · rw [if_pos (by omega)]
        simp
    · intro h0
      rcases e4 h0 with h0 | h0
      · omega
      · exact .inr (by simp [input, h0])
    · exact ⟨pos + n, none, ⟨e6, h2⟩, by simp [input, List.drop_drop]⟩
  | some b =>
    simp only at h2
    have hg' : fgetc g s = ok ((b.toNat : Int), { s with back := -1 }) := by
      unfold fgetc
      rw [if_pos (by rw [h2]; omega), h2]
    have hw : m.wr data (toByte (b.toNat : Int)) = ok (m.set data b) := by
      rw [toByte_toNat]
      unfold Mem.wr
      rw [if_pos (by omega)]
    have hin : input content pos (some b) = b :: content.drop pos := rfl
    obtain ⟨n, f', m', e1, e2, e3, e4, e5, e6, e7, e8⟩ :=
      read_input (m := m.set data b) (p := data + 1) (size := size * count - 1) hg h1 (by simp; omega)
    by_cases ht : size * count - 1 = 0
    · refine ⟨1, { s with back := -1 }, m.set data b, ?_, by omega, by simp [hin], by simp, ?_, ?_, ?_⟩
      · unfold fread
        rw [if_neg (by simp [hs, hc])]
        simp only
        rw [if_pos (by rw [h2]; omega), hg']
        simp only [ok_bind, hw]
        rw [if_neg (by omega)]
        simp
      · rw [hin]
        exact .cons (by omega) (.nil _ _)
      · exact ⟨pos, none, ⟨h1, rfl⟩, by simp [input]⟩
      · intro _
        rw [hin]
        simp only [List.length_cons]
        omega
    · refine ⟨n + 1, { fd := f', back := -1 }, m', ?_, by omega, by rw [hin]; simp only [List.length_cons]; omega, by simp, ?_, ?_, ?_⟩
      · unfold fread
        rw [if_neg (by simp [hs, hc])]
        simp only
        rw [if_pos (by rw [h2]; omega), hg']
        simp only [ok_bind, hw]
        rw [if_pos (by omega), e1]
        simp only [ok_bind]
        rw [if_neg (show ¬ ((n : Int) < 0 ∧ (1 : Int) = 0) by omega), if_pos (by omega)]
        congr 3
        omega
      · rw [hin]
        exact .cons (by omega) e5
      · exact ⟨pos + n, none, ⟨e6, rfl⟩, by simp [input, List.drop_drop]⟩
      · intro hm
        rw [hin, e8 (by omega)]
        simp only [List.length_cons]
        omega

end Mes.C
