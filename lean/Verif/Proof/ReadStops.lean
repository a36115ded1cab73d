import Verif.Proof.ReadEnds
import Verif.Proof.Tokens
import Verif.Spec.ReadText
/-
The reader comes to an end on every plain text of a file.
-/
namespace Mes
open Res Spec

variable {E : Env} {s s' s'' : St} {w w' : In} {H H' : List (List Byte × Int)} {t t' bs : List Byte} {n : Nat} {dots clear : Bool} {k fuel : Nat}

theorem _root_.Mes.Spec.PlainText.suffix (h : PlainText dots t) (hs : t' <:+ t) : PlainText dots t' := by
  obtain ⟨u0, rfl⟩ := hs
  refine ⟨fun b hb => h.ascii b (by simp [hb]), fun u v x hx e => h.closed (u0 ++ u) v x hx (by rw [e]; simp), ?_⟩
  have := h.rest
  cases dots
  · exact fun u v e => this (u0 ++ u) v (by rw [e]; simp)
  · exact fun u v e => this (u0 ++ u) v (by rw [e]; simp)

/-! ### Characters -/

theorem fileInput_weaken (h : FileInput w t clear) : FileInput w t false :=
  ⟨h.fd, by rcases h.text with h | ⟨-, h⟩; exact .inl h; exact .inr ⟨rfl, h⟩⟩

theorem file_read (h : FileInput w t false) (s : St) (k : Nat) :
    ∃ w', readchar s w k = ok (next t, s, w') ∧ FileInput w' (t.drop 1) false := by
  cases t with
  | nil => exact ⟨w, readchar_eof (m := 0) (p := 0) (.file rfl h), h⟩
  | cons b t =>
    obtain ⟨w', e1, e2, -⟩ := fdgetc_ok h
    exact ⟨w', by simp only [readchar, if_pos h.fd.1, e1, ok_bind, next], fileInput_weaken e2⟩

theorem file_peek (h : FileInput w t false) (s : St) (k : Nat) :
    ∃ w', peekchar s w k = ok (next t, s, w') ∧ FileInput w' t false := by
  cases t with
  | nil => exact ⟨w, peekchar_eof (m := 0) (p := 0) (.file rfl h), h⟩
  | cons b t =>
    obtain ⟨w1, e1, e2, h1⟩ := fdgetc_ok h
    obtain ⟨w2, e3, e4, -⟩ := fdungetc_ok e2 b
    refine ⟨w2, ?_, e4⟩
    simp only [peekchar, if_pos h.fd.1, readchar, e1, ok_bind, unreadchar, if_pos e2.fd.1, e3, next]

theorem code_ne_eof (b : Byte) : code b ≠ eof := by have := code_nonneg b; unfold eof; omega

theorem next_eof (h : next t = eof) : t = [] := by
  cases t with
  | nil => rfl
  | cons b t => exact absurd h (code_ne_eof b)

theorem stops_unread (h : FileInput w (t.drop 1) false) (s : St) (k : Nat) :
    Stops (unreadchar s w k (next t)) (fun r => r.2.1 = s ∧ FileInput r.2.2 t false) := by
  simp only [unreadchar, if_pos h.fd.1, fdungetc]
  cases t with
  | nil => rw [if_pos (show next [] = eof from rfl)]; exact .ok ⟨rfl, h⟩
  | cons b t =>
    have hc := code_nonneg b
    simp only [next_cons]
    have hfd : ¬ (w.stdin < 0 ∨ 512 < w.stdin) := by have := h.fd; omega
    simp only [code_ne_eof b, hfd, if_false]
    split
    · exact .abort
    · rename_i hu
      rcases h.text with ⟨h1, h2⟩ | ⟨-, c, h1, h2⟩
      · refine .ok ⟨rfl, h.fd, .inr ⟨rfl, b, by simp [next], by simp at h2; simp [h2]⟩⟩
      · rw [h1] at hu; exact absurd (code_nonneg c) hu

/-! ### Loops over characters -/

/-- The character `c` has been read, and the text `t'` begins with it. -/
structure At (t' : List Byte) (s : St) (c : Int) (s' : St) (w : In) : Prop where
  char : c = next t'
  mem : s' = s
  left : FileInput w (t'.drop 1) false

theorem suffix_drop (t : List Byte) (n : Nat) : t.drop n <:+ t := List.drop_suffix n t

theorem length_drop1 (h : next t ≠ eof) : (t.drop 1).length + 1 = t.length := by
  cases t with
  | nil => exact absurd rfl h
  | cons b t => rfl

theorem stops_lineComment : ∀ (fuel : Nat) (w : In) (t : List Byte), FileInput w (t.drop 1) false → t.length < fuel →
    Stops (readLineComment k fuel s w (next t)) (fun r => ∃ t', t' <:+ t ∧ next t' = 10 ∧ At t' s r.1 r.2.1 r.2.2)
  | 0, _, _, _, hf => by omega
  | fuel + 1, w, t, h, hf => by
    unfold readLineComment
    split
    · rename_i hc
      split
      · rename_i h10
        exact .ok ⟨t, List.suffix_refl t, h10, rfl, rfl, h⟩
      · obtain ⟨w1, e1, h1⟩ := file_read h s k
        rw [e1, ok_bind]
        have := length_drop1 hc
        exact (stops_lineComment fuel w1 (t.drop 1) h1 (by omega)).mono fun r ⟨t', g1, g2⟩ => ⟨t', g1.trans (suffix_drop t 1), g2⟩
    · exact .err

theorem stops_digits : ∀ (fuel : Nat) (w : In) (t : List Byte) (m : Int) (buf : List Byte), FileInput w (t.drop 1) false → t.length < fuel →
    Stops (readDigits k fuel s w (next t) m buf) (fun r => ∃ pre t', t = pre ++ t' ∧ r.2.1 = buf ++ pre ∧ At t' s r.2.2.1 r.2.2.2.1 r.2.2.2.2)
  | 0, _, _, _, _, _, hf => by omega
  | fuel + 1, w, t, m, buf, h, hf => by
    unfold readDigits
    split
    · rename_i hd
      cases t with
      | nil => exact absurd hd (by decide)
      | cons b t =>
        refine stops_ubUnless.bind fun _ _ => (stops_ckLong _).bind fun _ _ => (stops_ckLong _).bind fun _ _ => (stops_ckLong _).bind fun m' _ => ?_
        obtain ⟨w1, e1, h1⟩ := file_read h s k
        simp only [e1, ok_bind, next_cons, toByte_code]
        refine (stops_digits fuel w1 t m' _ h1 (by simp at hf; omega)).mono fun r ⟨pre, t', g1, g2, g3⟩ => ⟨b :: pre, t', by simp [g1], by simp [g2], g3⟩
    · exact .ok ⟨[], t, rfl, by simp, rfl, rfl, h⟩

theorem stops_word : ∀ (fuel : Nat) (w : In) (t : List Byte) (buf : List Byte), FileInput w (t.drop 1) false → t.length < fuel →
    Stops (readWord k fuel s w (next t) buf) (fun r => ∃ pre t', t = pre ++ t' ∧ r.1 = buf ++ pre ∧ endOfWordP (next t') = true ∧
      At t' s r.2.1 r.2.2.1 r.2.2.2)
  | 0, _, _, _, _, hf => by omega
  | fuel + 1, w, t, buf, h, hf => by
    unfold readWord
    split
    · rename_i he; exact .ok ⟨[], t, rfl, by simp, he, rfl, rfl, h⟩
    · rename_i hd
      cases t with
      | nil => exact absurd rfl hd
      | cons b t =>
        refine stops_ubUnless.bind fun _ _ => ?_
        obtain ⟨w1, e1, h1⟩ := file_read h s k
        simp only [e1, ok_bind, next_cons, toByte_code]
        refine (stops_word fuel w1 t _ h1 (by simp at hf; omega)).mono fun r ⟨pre, t', g1, g2, g3⟩ => ⟨b :: pre, t', by simp [g1], by simp [g2], g3⟩

theorem stops_plus (h : FileInput w (t.drop 1) false) :
    Stops (readPlus k s w (next t)) (fun r => ∃ t', t' <:+ t ∧ (t' = t ∨ t'.length < t.length ∧ C.isdigit (next t') = true) ∧ At t' s r.1 r.2.1 r.2.2) := by
  unfold readPlus
  split
  · rename_i h43
    obtain ⟨w1, e1, h1⟩ := file_peek h s k
    rw [e1, ok_bind]
    dsimp only
    split
    · rename_i hd
      obtain ⟨w2, e2, h2⟩ := file_read h1 s k
      rw [e2]
      have := length_drop1 (t := t) (by rw [h43]; decide)
      exact .ok ⟨t.drop 1, suffix_drop t 1, .inr ⟨by omega, hd⟩, rfl, rfl, h2⟩
    · exact .ok ⟨t, List.suffix_refl t, .inl rfl, rfl, rfl, h1⟩
  · exact .ok ⟨t, List.suffix_refl t, .inl rfl, rfl, rfl, h⟩

theorem stops_minus (h : FileInput w (t.drop 1) false) :
    Stops (readMinus k s w (next t)) (fun r => ∃ t', t' <:+ t ∧ (t' = t ∨ t'.length < t.length ∧ C.isdigit (next t') = true) ∧ At t' s r.2.1 r.2.2.1 r.2.2.2) := by
  unfold readMinus
  split
  · rename_i h43
    obtain ⟨w1, e1, h1⟩ := file_peek h s k
    rw [e1, ok_bind]
    dsimp only
    split
    · rename_i hd
      obtain ⟨w2, e2, h2⟩ := file_read h1 s k
      rw [e2]
      have := length_drop1 (t := t) (by rw [h43]; decide)
      exact .ok ⟨t.drop 1, suffix_drop t 1, .inr ⟨by omega, hd⟩, rfl, rfl, h2⟩
    · exact .ok ⟨t, List.suffix_refl t, .inl rfl, rfl, rfl, h1⟩
  · exact .ok ⟨t, List.suffix_refl t, .inl rfl, rfl, rfl, h⟩

theorem stops_blockComment (x : Byte) : ∀ (fuel : Nat) (w : In) (t a b : List Byte), t = a ++ x :: 35 :: b → FileInput w (t.drop 1) false → t.length < fuel →
    Stops (readBlockComment k (code x) fuel s w (next t)) (fun r => ∃ t', t' <:+ t ∧ r.1 = s ∧ FileInput r.2 t' false)
  | 0, _, _, _, _, _, _, hf => by omega
  | fuel + 1, w, t, a, b, ht, h, hf => by
    have more : ∀ {w1 : In}, FileInput w1 (t.drop 1) false → (next t = code x → next (t.drop 1) ≠ 35) →
        Stops (do
          let (c, s, w) ← readchar s w1 k
          readBlockComment k (code x) fuel s w c) (fun r => ∃ t', t' <:+ t ∧ r.1 = s ∧ FileInput r.2 t' false) := fun {w1} h1 hn => by
      obtain ⟨w2, e2, h2⟩ := file_read h1 s k
      rw [e2, ok_bind]
      dsimp only
      cases a with
      | nil => subst ht; exact absurd rfl (hn rfl)
      | cons y a =>
        subst ht
        exact (stops_blockComment x fuel w2 _ a b rfl h2 (by simp at hf ⊢; omega)).mono fun r ⟨t', g1, g2⟩ =>
          ⟨t', g1.trans (List.suffix_cons y _), g2⟩
    unfold readBlockComment
    split
    · obtain ⟨w1, e1, h1⟩ := file_peek h s k
      rw [e1, ok_bind]
      dsimp only
      split
      · obtain ⟨w2, e2, h2⟩ := file_read h1 s k
        rw [e2, ok_bind]
        exact .ok ⟨(t.drop 1).drop 1, (suffix_drop _ 1).trans (suffix_drop t 1), rfl, h2⟩
      · rename_i hp
        exact more h1 (fun _ => hp)
    · rename_i hc
      exact more h (fun e => absurd e hc)

theorem suffix_lt (h : t' <:+ t) (hne : t' ≠ t) : t'.length < t.length := by
  have := h.length_le
  rcases Nat.lt_or_ge t'.length t.length with h' | h'
  · exact h'
  · exact absurd (h.eq_of_length (by omega)) hne

theorem next_byte {x : Byte} (h : next t = code x) : ∃ v, t = x :: v := by
  cases t with
  | nil => exact absurd h.symm (code_ne_eof x)
  | cons b v => exact ⟨v, by rw [code_inj.1 h]⟩

/-- The two characters behind `#` that begin a block comment. -/
theorem block_start (h : next t = 33 ∨ next t = 124) : ∃ (x : Byte) (v : List Byte), t = x :: v ∧ (x = 33 ∨ x = 124) := by
  rcases h with h | h
  · obtain ⟨v, e⟩ := next_byte (x := 33) h
    exact ⟨33, v, e, .inl rfl⟩
  · obtain ⟨v, e⟩ := next_byte (x := 124) h
    exact ⟨124, v, e, .inr rfl⟩

theorem stops_eatWhitespace : ∀ (fuel : Nat) (w : In) (t : List Byte), PlainText dots t → FileInput w (t.drop 1) false → t.length + 1 < fuel →
    Stops (eatWhitespace k fuel s w (next t)) (fun r => ∃ t', t' <:+ t ∧ C.isspace (next t') = false ∧ At t' s r.1 r.2.1 r.2.2)
  | 0, _, _, _, _, hf => by omega
  | fuel + 1, w, t, hp, h, hf => by
    have again : ∀ {w1 : In} {t1 : List Byte}, t1 <:+ t → t1.length < t.length → FileInput w1 (t1.drop 1) false →
        Stops (eatWhitespace k fuel s w1 (next t1)) (fun r => ∃ t', t' <:+ t ∧ C.isspace (next t') = false ∧ At t' s r.1 r.2.1 r.2.2) :=
      fun {w1 t1} h1 h2 h3 => (stops_eatWhitespace fuel w1 t1 (hp.suffix h1) h3 (by omega)).mono fun r ⟨t', g1, g2⟩ => ⟨t', g1.trans h1, g2⟩
    unfold eatWhitespace
    split
    · rename_i hs
      obtain ⟨w1, e1, h1⟩ := file_read h s k
      rw [e1, ok_bind]
      have := length_drop1 (t := t) (fun e => by rw [e] at hs; exact absurd hs (by decide))
      exact again (suffix_drop t 1) (by omega) h1
    · rename_i hs
      split
      · rename_i h59
        refine (stops_lineComment fuel w t h (by omega)).bind fun ⟨c, s1, w1⟩ ⟨t', g1, g2, g3⟩ => ?_
        obtain ⟨e1, e2, e3⟩ := g3
        dsimp only at e1 e2 e3 ⊢
        subst e1 e2
        exact again g1 (suffix_lt g1 (fun e => by rw [e, h59] at g2; exact absurd g2 (by decide))) e3
      · rename_i h59
        split
        · rename_i h35
          obtain ⟨w1, e1, h1⟩ := file_peek h s k
          rw [e1, ok_bind]
          dsimp only
          split
          · rename_i hx
            obtain ⟨x, v, ev, hx'⟩ := block_start hx
            obtain ⟨v', et⟩ := next_byte (x := 35) h35
            subst et
            simp only [List.drop_succ_cons, List.drop_zero] at ev h1
            subst ev
            obtain ⟨a, b, hv⟩ := hp.closed [] v x hx' rfl
            obtain ⟨w2, e2, h2⟩ := file_read h1 s k
            obtain ⟨w3, e3, h3⟩ := file_read h2 s k
            rw [e2, ok_bind]
            dsimp only
            rw [e3, ok_bind]
            dsimp only
            rw [next_cons]
            refine (stops_blockComment x fuel w3 v a b hv h3 (by simp at hf; omega)).bind fun ⟨s1, w4⟩ ⟨t', g1, g2, g3⟩ => ?_
            dsimp only at g2 g3 ⊢
            subst g2
            obtain ⟨w5, e5, h5⟩ := file_read g3 s1 k
            rw [e5, ok_bind]
            have := g1.length_le
            exact again (g1.trans ⟨[35, x], rfl⟩) (by simp; omega) h5
          · exact .ok ⟨t, List.suffix_refl t, by simpa using hs, rfl, rfl, h1⟩
        · exact .ok ⟨t, List.suffix_refl t, by simpa using hs, rfl, rfl, h⟩

/-! ### Numbers and characters -/

theorem stops_rd (s : St) (x : Int) : Stops (s.rd x) (fun _ => True) := by
  unfold St.rd; split
  · exact .ok trivial
  · exact .ub
theorem stops_cdr (s : St) (x : Int) : Stops (s.cdr x) (fun _ => True) := (stops_rd s x).bind fun _ _ => .ok trivial
theorem stops_car (s : St) (x : Int) : Stops (s.car x) (fun _ => True) := (stops_rd s x).bind fun _ _ => .ok trivial
theorem stops_tag (s : St) (x : Int) : Stops (s.tag x) (fun _ => True) := (stops_rd s x).bind fun _ _ => .ok trivial

/-- A new object was made, and a part of the text read. -/
structure New (s : St) (t : List Byte) (r : Int × St × In) : Prop where
  fresh : c_symbol_max ≤ r.1
  ext : Ext s r.2.1
  left : ∃ t', t' <:+ t ∧ FileInput r.2.2 t' false

theorem stops_make (g : Tag) (a d : Int) {s₀ : St} (hx : Ext s₀ s) (hb : c_symbol_max ≤ s₀.free) {t' : List Byte} (hs : t' <:+ t) (h : FileInput w t' false) :
    Stops (do let (x, s) ← makeCell s g a d; ok (x, s, w)) (fun r => New s₀ t r) := by
  refine (stops_makeCell (Room.base_ext hb hx) ..).bind fun ⟨x, s1⟩ ⟨_, e⟩ => ?_
  cases e
  exact .ok ⟨Room.base_ext hb hx, hx.trans (push_ext _ _), t', hs, h⟩

theorem stops_radix {base : Int} : ∀ (fuel : Nat) (w : In) (t : List Byte) (m : Int), FileInput w t false → t.length < fuel →
    Stops (readRadix k base fuel s w (next t) m) (fun r => ∃ t', t' <:+ t ∧ r.2.1 = s ∧ FileInput r.2.2 t' false)
  | 0, _, _, _, _, hf => by omega
  | fuel + 1, w, t, m, h, hf => by
    unfold readRadix
    split
    · rename_i hd
      refine (stops_ckLong _).bind fun _ _ => (stops_ckLong _).bind fun _ _ => (stops_ckLong _).bind fun m' _ => ?_
      obtain ⟨w1, e1, h1⟩ := file_read h s k
      obtain ⟨w2, e2, h2⟩ := file_peek h1 s k
      rw [e1, ok_bind]
      dsimp only
      rw [e2, ok_bind]
      have := length_drop1 (t := t) (fun e => by rw [e] at hd; exact absurd hd.1 (by decide))
      exact (stops_radix fuel w2 (t.drop 1) m' h2 (by omega)).mono fun r ⟨t', g1, g2⟩ => ⟨t', g1.trans (suffix_drop t 1), g2⟩
    · exact .ok ⟨t, List.suffix_refl t, rfl, h⟩

theorem stops_hexDigits : ∀ (fuel : Nat) (w : In) (t : List Byte) (m : Int), FileInput w t false → t.length < fuel →
    Stops (readHexDigits k fuel s w (next t) m) (fun r => ∃ t', t' <:+ t ∧ r.2.1 = s ∧ FileInput r.2.2 t' false)
  | 0, _, _, _, _, hf => by omega
  | fuel + 1, w, t, m, h, hf => by
    unfold readHexDigits
    split
    · rename_i hd
      have jp : ∀ m' : Int, Stops (do
          let (_, s, w) ← readchar s w k
          let (c, s, w) ← peekchar s w k
          readHexDigits k fuel s w c m') (fun r => ∃ t', t' <:+ t ∧ r.2.1 = s ∧ FileInput r.2.2 t' false) := fun m' => by
        obtain ⟨w1, e1, h1⟩ := file_read h s k
        obtain ⟨w2, e2, h2⟩ := file_peek h1 s k
        rw [e1, ok_bind]
        dsimp only
        rw [e2, ok_bind]
        have := length_drop1 (t := t) (fun e => by rw [e] at hd; exact absurd hd (by decide))
        exact (stops_hexDigits fuel w2 (t.drop 1) m' h2 (by omega)).mono fun r ⟨t', g1, g2⟩ => ⟨t', g1.trans (suffix_drop t 1), g2⟩
      refine (stops_ckLong _).bind fun _ _ => (stops_ckLong _).bind fun _ _ => ?_
      dsimp only
      split
      · exact (stops_ckLong _).bind fun m' _ => jp m'
      · split
        · exact (stops_ckLong _).bind fun m' _ => jp m'
        · exact (stops_ckLong _).bind fun m' _ => jp m'
    · exact .ok ⟨t, List.suffix_refl t, rfl, h⟩

theorem stops_sign (h : FileInput w t false) :
    Stops (readSign k s w) (fun r => ∃ t', t' <:+ t ∧ r.2.1 = next t' ∧ r.2.2.1 = s ∧ FileInput r.2.2.2 t' false) := by
  obtain ⟨w1, e1, h1⟩ := file_peek h s k
  unfold readSign
  rw [e1, ok_bind]
  dsimp only
  split
  · obtain ⟨w2, e2, h2⟩ := file_read h1 s k
    obtain ⟨w3, e3, h3⟩ := file_peek h2 s k
    rw [e2, ok_bind]
    dsimp only
    rw [e3, ok_bind]
    exact .ok ⟨t.drop 1, suffix_drop t 1, rfl, rfl, h3⟩
  · exact .ok ⟨t, List.suffix_refl t, rfl, rfl, h1⟩

theorem stops_hex (h : FileInput w t false) (hb : c_symbol_max ≤ s.free) (hf : t.length < fuel) : Stops (readHex k fuel s w) (fun r => New s t r) := by
  unfold readHex
  refine (stops_sign h).bind fun ⟨neg, c, s1, w1⟩ ⟨t1, g1, g2, g3, g4⟩ => ?_
  dsimp only at g2 g3 g4 ⊢
  subst g2 g3
  refine (stops_hexDigits fuel w1 t1 0 g4 (by have := g1.length_le; omega)).bind fun ⟨m, s2, w2⟩ ⟨t2, k1, k2, k3⟩ => ?_
  dsimp only at k2 k3 ⊢
  subst k2
  exact stops_make _ _ _ (Frame.refl _ _) hb (k1.trans g1) k3

theorem stops_binaryOctal {base : Int} (h : FileInput w t false) (hb : c_symbol_max ≤ s.free) (hf : t.length < fuel) :
    Stops (readBinaryOctal k fuel base s w) (fun r => New s t r) := by
  unfold readBinaryOctal
  refine (stops_sign h).bind fun ⟨neg, c, s1, w1⟩ ⟨t1, g1, g2, g3, g4⟩ => ?_
  dsimp only at g2 g3 g4 ⊢
  subst g2 g3
  refine (stops_radix fuel w1 t1 0 g4 (by have := g1.length_le; omega)).bind fun ⟨m, s2, w2⟩ ⟨t2, k1, k2, k3⟩ => ?_
  dsimp only at k2 k3 ⊢
  subst k2
  exact stops_make _ _ _ (Frame.refl _ _) hb (k1.trans g1) k3

theorem stops_octalChar : ∀ (fuel : Nat) (w : In) (t : List Byte) (c : Int), FileInput w t false → t.length < fuel →
    Stops (readOctalChar k fuel s w c (next t)) (fun r => ∃ t', t' <:+ t ∧ r.2.1 = s ∧ FileInput r.2.2 t' false)
  | 0, _, _, _, _, hf => by omega
  | fuel + 1, w, t, c, h, hf => by
    unfold readOctalChar
    split
    · rename_i hd
      refine stops_ubUnless.bind fun _ _ => ?_
      obtain ⟨w1, e1, h1⟩ := file_read h s k
      obtain ⟨w2, e2, h2⟩ := file_peek h1 s k
      rw [e1, ok_bind]
      dsimp only
      refine stops_ubUnless.bind fun _ _ => ?_
      rw [e2, ok_bind]
      have := length_drop1 (t := t) (fun e => by rw [e] at hd; exact absurd hd.1 (by decide))
      exact (stops_octalChar fuel w2 (t.drop 1) _ h2 (by omega)).mono fun r ⟨t', g1, g2⟩ => ⟨t', g1.trans (suffix_drop t 1), g2⟩
    · exact .ok ⟨t, List.suffix_refl t, rfl, h⟩

theorem stops_charName : ∀ (fuel : Nat) (w : In) (t : List Byte) (buf : List Byte), FileInput w t false → t.length < fuel →
    Stops (readCharName k fuel s w (next t) buf) (fun r => ∃ t', t' <:+ t ∧ r.2.1 = s ∧ FileInput r.2.2 t' false)
  | 0, _, _, _, _, hf => by omega
  | fuel + 1, w, t, buf, h, hf => by
    unfold readCharName
    split
    · rename_i hd
      obtain ⟨w1, e1, h1⟩ := file_read h s k
      obtain ⟨w2, e2, h2⟩ := file_peek h1 s k
      rw [e1, ok_bind]
      dsimp only
      refine stops_ubUnless.bind fun _ _ => ?_
      rw [e2, ok_bind]
      have := length_drop1 (t := t) (fun e => by rw [e] at hd; exact absurd hd (by decide))
      exact (stops_charName fuel w2 (t.drop 1) _ h2 (by omega)).mono fun r ⟨t', g1, g2⟩ => ⟨t', g1.trans (suffix_drop t 1), g2⟩
    · exact stops_ubUnless.bind fun _ _ => .ok ⟨t, List.suffix_refl t, rfl, h⟩

theorem stops_character (h : FileInput w t false) (hb : c_symbol_max ≤ s.free) (hf : t.length < fuel) : Stops (readCharacter k fuel s w) (fun r => New s t r) := by
  obtain ⟨w1, e1, h1⟩ := file_read h s k
  obtain ⟨w2, e2, h2⟩ := file_peek h1 s k
  have hl := (suffix_drop t 1).length_le
  have hs := suffix_drop t 1
  unfold readCharacter
  rw [e1, ok_bind]
  dsimp only
  rw [e2, ok_bind]
  dsimp only
  split
  · refine (stops_octalChar fuel w2 _ _ h2 (by omega)).bind fun ⟨c, s1, w3⟩ ⟨t', g1, g2, g3⟩ => ?_
    dsimp only at g2 g3 ⊢
    subst g2
    exact stops_make _ _ _ (Frame.refl _ _) hb (g1.trans hs) g3
  · split
    · refine (stops_hex h2 hb (by omega)).bind fun ⟨c, s1, w3⟩ ⟨g1, g2, t', g3, g4⟩ => ?_
      dsimp only at g1 g2 g3 g4 ⊢
      refine (stops_cdr _ _).bind fun _ _ => ?_
      exact stops_make _ _ _ g2 hb (g3.trans hs) g4
    · split
      · refine (stops_charName fuel w2 _ _ h2 (by omega)).bind fun ⟨buf, s1, w3⟩ ⟨t', g1, g2, g3⟩ => ?_
        dsimp only at g2 g3 ⊢
        subst g2
        split
        · exact stops_make _ _ _ (Frame.refl _ _) hb (g1.trans hs) g3
        · exact .err
      · exact stops_make _ _ _ (Frame.refl _ _) hb hs h2

/-! ### Strings -/

theorem stops_escape {c : Int} (h : FileInput w t false) (hb : c_symbol_max ≤ s.free) (hf : t.length < fuel) :
    Stops (readEscape k fuel s w c) (fun r => Ext s r.2.1 ∧ ∃ t', t' <:+ t ∧ FileInput r.2.2 t' false) := by
  unfold readEscape
  split
  · exact .ok ⟨Frame.refl _ _, t, List.suffix_refl t, h⟩
  · split
    · refine (stops_hex h hb hf).bind fun ⟨c, s1, w3⟩ ⟨g1, g2, t', g3, g4⟩ => ?_
      exact (stops_cdr _ _).bind fun _ _ => .ok ⟨g2, t', g3, g4⟩
    · exact .ok ⟨Frame.refl _ _, t, List.suffix_refl t, h⟩

theorem stops_stringLoop : ∀ (fuel : Nat) (s : St) (w : In) (t buf : List Byte), FileInput w t false → c_symbol_max ≤ s.free →
    buf.length ≤ s.maxString → s.maxString + 2 + t.length ≤ fuel + buf.length →
    Stops (readStringLoop k fuel s w buf) (fun r => Ext s r.2.1 ∧ ∃ t', t' <:+ t ∧ FileInput r.2.2 t' false)
  | 0, s, w, t, buf, h, hb, hm, hf => by omega
  | fuel + 1, s, w, t, buf, h, hb, hm, hf => by
    unfold readStringLoop
    split
    · exact .err
    · obtain ⟨w1, e1, h1⟩ := file_read h s k
      have hl := (suffix_drop t 1).length_le
      rw [e1, ok_bind]
      dsimp only
      split
      · exact .ok ⟨Frame.refl _ _, t.drop 1, suffix_drop t 1, h1⟩
      · split
        · obtain ⟨w2, e2, h2⟩ := file_read h1 s k
          have hl2 := (suffix_drop (t.drop 1) 1).length_le
          rw [e2, ok_bind]
          dsimp only
          refine (stops_escape h2 hb (by omega)).bind fun ⟨c, s1, w3⟩ ⟨g1, t', g2, g3⟩ => ?_
          dsimp only at g1 g2 g3 ⊢
          refine stops_ubUnless.bind fun _ hu => ?_
          have := g2.length_le
          refine (stops_stringLoop fuel s1 w3 t' _ g3 (Room.base_ext hb g1) (by simp; omega) (by rw [g1.maxString]; simp at *; omega)).mono fun r ⟨j1, t2, j2, j3⟩ =>
            ⟨g1.trans j1, t2, (j2.trans g2).trans ((suffix_drop _ 1).trans (suffix_drop t 1)), j3⟩
        · refine stops_ubUnless.bind fun _ hu => ?_
          refine (stops_stringLoop fuel s w1 (t.drop 1) _ h1 hb (by simp; omega) (by simp at *; omega)).mono fun r ⟨j1, t2, j2, j3⟩ =>
            ⟨j1, t2, j2.trans (suffix_drop t 1), j3⟩

theorem stops_string (h : FileInput w t false) (hb : c_symbol_max ≤ s.free) (hf : s.maxString + 2 + t.length ≤ fuel) :
    Stops (readString k fuel s w) (fun r => New s t r) := by
  unfold readString
  refine (stops_stringLoop fuel s w t [] h hb (by simp) (by simpa using hf)).bind fun ⟨buf, s1, w1⟩ ⟨g1, t', g2, g3⟩ => ?_
  dsimp only at g1 g2 g3 ⊢
  refine stops_ubUnless.bind fun _ _ => ?_
  refine (stops_makeString (Room.base_ext hb g1) buf).bind fun ⟨x, s2⟩ ⟨j1, j2, j3⟩ => ?_
  dsimp only at j1 j2 j3 ⊢
  exact .ok ⟨by dsimp only; rw [j1]; exact Room.base_ext hb g1, g1.trans j3, t', g2, g3⟩

end Mes
