import Verif.Proof.Sizes
import Verif.Model.Main
/-
The sizes of the memory do not matter for the reader.
-/
namespace Mes
namespace Wide
open Res

variable {u : Dims} {s s' : St} {w : In} {α β γ : Type} {W : β → β → Prop}

/-- Memories of different sizes with the same input. -/
def T (u : Dims) (a a' : St × In) : Prop := R u a.1 a'.1 ∧ a'.2 = a.2

/-- Equal values. -/
def Q (V : α → α → Prop) (a a' : γ × α) : Prop := a'.1 = a.1 ∧ V a.2 a'.2

theorem Lift.in {m m' : Res (St × In)} {f f' : St × In → Res β} (h : Lift (T u) m m')
    (hf : ∀ t t' w, R u t t' → Lift W (f (t, w)) (f' (t', w))) : Lift W (m >>= f) (m' >>= f') :=
  h.bind fun a a' hV => by
    obtain ⟨t, w⟩ := a
    obtain ⟨t', w'⟩ := a'
    obtain ⟨h1, h2⟩ := hV
    cases h2
    exact hf t t' w h1

theorem Lift.in1 {m m' : Res (γ × St × In)} {f f' : γ × St × In → Res β} (h : Lift (Q (T u)) m m')
    (hf : ∀ x t t' w, R u t t' → Lift W (f (x, t, w)) (f' (x, t', w))) : Lift W (m >>= f) (m' >>= f') :=
  h.bind fun a a' hV => by
    obtain ⟨x, t, w⟩ := a
    obtain ⟨x', t', w'⟩ := a'
    obtain ⟨h1, h2, h3⟩ := hV
    cases h1
    cases h3
    exact hf x t t' w h2

theorem okT (h : R u s s') : Lift (T u) (ok (s, w)) (ok (s', w)) := lift_ok ⟨h, rfl⟩
theorem ok1 (h : R u s s') (x : γ) : Lift (Q (T u)) (ok (x, s, w)) (ok (x, s', w)) := lift_ok ⟨rfl, h, rfl⟩
theorem ok2 {δ : Type} (h : R u s s') (x : γ) (y : δ) : Lift (Q (Q (T u))) (ok (x, y, s, w)) (ok (x, y, s', w)) := lift_ok ⟨rfl, rfl, h, rfl⟩
theorem ok3 {δ ε : Type} (h : R u s s') (x : γ) (y : δ) (z : ε) : Lift (Q (Q (Q (T u)))) (ok (x, y, z, s, w)) (ok (x, y, z, s', w)) :=
  lift_ok ⟨rfl, rfl, rfl, h, rfl⟩

theorem Lift.in2 {δ : Type} {m m' : Res (γ × δ × St × In)} {f f' : γ × δ × St × In → Res β} (h : Lift (Q (Q (T u))) m m')
    (hf : ∀ x y t t' w, R u t t' → Lift W (f (x, y, t, w)) (f' (x, y, t', w))) : Lift W (m >>= f) (m' >>= f') :=
  h.bind fun a a' hV => by
    obtain ⟨x, y, t, w⟩ := a
    obtain ⟨x', y', t', w'⟩ := a'
    obtain ⟨h1, h2, h3, h4⟩ := hV
    cases h1
    cases h2
    cases h4
    exact hf x y t t' w h3

theorem Lift.in3 {δ ε : Type} {m m' : Res (γ × δ × ε × St × In)} {f f' : γ × δ × ε × St × In → Res β} (h : Lift (Q (Q (Q (T u)))) m m')
    (hf : ∀ x y z t t' w, R u t t' → Lift W (f (x, y, z, t, w)) (f' (x, y, z, t', w))) : Lift W (m >>= f) (m' >>= f') :=
  h.bind fun a a' hV => by
    obtain ⟨x, y, z, t, w⟩ := a
    obtain ⟨x', y', z', t', w'⟩ := a'
    obtain ⟨h1, h2, h3, h4, h5⟩ := hV
    cases h1
    cases h2
    cases h3
    cases h5
    exact hf x y z t t' w h4

theorem mx (h : R u s s') : s'.maxString = s.maxString := by rw [h.1]; rfl

/-! ### Characters -/

theorem portLoop_as (h : R u s s') (i : Int) : ∀ (fuel : Nat) (x : Int), portLoop s' i fuel x = portLoop s i fuel x
  | 0, _ => rfl
  | fuel + 1, x => by simp only [portLoop, car h, cdr h, portLoop_as h i fuel]

theorem stringPort_as (h : R u s s') (k : Nat) : stringPort s' w k = stringPort s w k := by
  have e : s'.ports = s.ports := by rw [h.1]; rfl
  simp only [stringPort, e, portLoop_as h]

theorem readchar_as (h : R u s s') (k : Nat) : Lift (Q (T u)) (readchar s w k) (readchar s' w k) :=
  .ite (.read rfl fun _ => ok1 h _) (.read (stringPort_as h k) fun p => .read (cdr h p) fun q => .read (car h q) fun _ => .ite (ok1 h _)
    (.read (cdr h q) fun b => .read (bytes h b) fun _ => .read rfl fun _ => (makeString_as h _).with fun _ _ _ h => (setCdr_as h _ _).bind fun _ _ h => ok1 h _))

theorem unreadchar_as (h : R u s s') (k : Nat) (c : Int) : Lift (Q (T u)) (unreadchar s w k c) (unreadchar s' w k c) :=
  .ite (.read rfl fun _ => ok1 h _) (.ite (ok1 h _) (.read (stringPort_as h k) fun p => .read (cdr h p) fun q => .read (car h q) fun _ =>
    .read (cdr h q) fun b => .read (bytes h b) fun _ => .read rfl fun _ => (makeString_as h _).with fun _ _ _ h => (setCdr_as h _ _).bind fun _ _ h => ok1 h _))

theorem peekchar_as (h : R u s s') (k : Nat) : Lift (Q (T u)) (peekchar s w k) (peekchar s' w k) :=
  .ite ((readchar_as h k).in1 fun _ _ _ _ h => (unreadchar_as h k _).in1 fun _ _ _ _ h => ok1 h _)
    (.read (stringPort_as h k) fun p => .read (cdr h p) fun q => .read (car h q) fun _ => .ite (ok1 h _)
    (.read (cdr h q) fun b => .read (bytes h b) fun _ => .read rfl fun _ => ok1 h _))

/-! ### Words, numbers and comments -/

theorem readLineComment_as (k : Nat) : ∀ (fuel : Nat) {s s' : St} {w : In} (c : Int), R u s s' → Lift (Q (T u)) (readLineComment k fuel s w c) (readLineComment k fuel s' w c)
  | 0, _, _, _, _, _ => lift_loop
  | fuel + 1, _, _, _, _, h => .ite (.ite (ok1 h _) ((readchar_as h k).in1 fun _ _ _ _ h => readLineComment_as k fuel _ h)) lift_err

theorem readDigits_as (k : Nat) : ∀ (fuel : Nat) {s s' : St} {w : In} (c n : Int) (buf : List Byte), R u s s' →
    Lift (Q (Q (Q (T u)))) (readDigits k fuel s w c n buf) (readDigits k fuel s' w c n buf)
  | 0, _, _, _, _, _, _, _ => lift_loop
  | fuel + 1, _, _, _, _, _, _, h => .ite (.read (by rw [mx h]) fun _ => .read rfl fun _ => .read rfl fun _ => .read rfl fun _ =>
      (readchar_as h k).in1 fun _ _ _ _ h => readDigits_as k fuel _ _ _ h) (ok3 h _ _ _)

theorem readWord_as (k : Nat) : ∀ (fuel : Nat) {s s' : St} {w : In} (c : Int) (buf : List Byte), R u s s' →
    Lift (Q (Q (T u))) (readWord k fuel s w c buf) (readWord k fuel s' w c buf)
  | 0, _, _, _, _, _, _ => lift_loop
  | fuel + 1, _, _, _, _, _, h => .ite (ok2 h _ _) (.read (by rw [mx h]) fun _ => (readchar_as h k).in1 fun _ _ _ _ h => readWord_as k fuel _ _ h)

theorem readPlus_as (h : R u s s') (k : Nat) (c : Int) : Lift (Q (T u)) (readPlus k s w c) (readPlus k s' w c) :=
  .ite ((peekchar_as h k).in1 fun _ _ _ _ h => .ite (readchar_as h k) (ok1 h _)) (ok1 h _)

theorem readMinus_as (h : R u s s') (k : Nat) (c : Int) : Lift (Q (Q (T u))) (readMinus k s w c) (readMinus k s' w c) :=
  .ite ((peekchar_as h k).in1 fun _ _ _ _ h => .ite ((readchar_as h k).in1 fun _ _ _ _ h => ok2 h _ _) (ok2 h _ _)) (ok2 h _ _)

theorem made {m m' : Res (Int × St)} (h : Lift (P u) m m') : Lift (Q (T u)) (m >>= fun p => ok (p.1, p.2, w)) (m' >>= fun p => ok (p.1, p.2, w)) :=
  h.with fun _ _ _ h => ok1 h _

theorem readIdentifierOrNumber_as (h : R u s s') (k fuel : Nat) (c : Int) : Lift (Q (T u)) (readIdentifierOrNumber k fuel s w c) (readIdentifierOrNumber k fuel s' w c) :=
  (readPlus_as h k c).in1 fun _ _ _ _ h => (readMinus_as h k _).in2 fun _ _ _ _ _ h => (readDigits_as k fuel _ _ _ h).in3 fun _ _ _ _ _ _ h => .ite
    ((unreadchar_as h k _).in1 fun _ _ _ _ h => (makeNumber_as h _).with fun _ _ _ h => ok1 h _)
    ((readWord_as k fuel _ _ h).in2 fun _ _ _ _ _ h => (unreadchar_as h k _).in1 fun _ _ _ _ h => .read (by rw [mx h]) fun _ =>
      (cstringToSymbol_as h k _).with fun _ _ _ h => ok1 h _)

theorem readBlockComment_as (k : Nat) (t : Int) : ∀ (fuel : Nat) {s s' : St} {w : In} (c : Int), R u s s' →
    Lift (T u) (readBlockComment k t fuel s w c) (readBlockComment k t fuel s' w c)
  | 0, _, _, _, _, _ => lift_loop
  | fuel + 1, _, _, _, _, h => .ite ((peekchar_as h k).in1 fun _ _ _ _ h => .ite ((readchar_as h k).in1 fun _ _ _ _ h => okT h)
      ((readchar_as h k).in1 fun _ _ _ _ h => readBlockComment_as k t fuel _ h)) ((readchar_as h k).in1 fun _ _ _ _ h => readBlockComment_as k t fuel _ h)

theorem eatWhitespace_as (k : Nat) : ∀ (fuel : Nat) {s s' : St} {w : In} (c : Int), R u s s' → Lift (Q (T u)) (eatWhitespace k fuel s w c) (eatWhitespace k fuel s' w c)
  | 0, _, _, _, _, _ => lift_loop
  | fuel + 1, _, _, _, _, h => .ite ((readchar_as h k).in1 fun _ _ _ _ h => eatWhitespace_as k fuel _ h)
      (.ite ((readLineComment_as k fuel _ h).in1 fun _ _ _ _ h => eatWhitespace_as k fuel _ h)
      (.ite ((peekchar_as h k).in1 fun _ _ _ _ h => .ite ((readchar_as h k).in1 fun _ _ _ _ h => (readchar_as h k).in1 fun _ _ _ _ h =>
        (readBlockComment_as k _ fuel _ h).in fun _ _ _ h => (readchar_as h k).in1 fun _ _ _ _ h => eatWhitespace_as k fuel _ h) (ok1 h _)) (ok1 h _)))

theorem readRadix_as (k : Nat) (b : Int) : ∀ (fuel : Nat) {s s' : St} {w : In} (c n : Int), R u s s' → Lift (Q (T u)) (readRadix k b fuel s w c n) (readRadix k b fuel s' w c n)
  | 0, _, _, _, _, _, _ => lift_loop
  | fuel + 1, _, _, _, _, _, h => .ite (.read rfl fun _ => .read rfl fun _ => .read rfl fun _ => (readchar_as h k).in1 fun _ _ _ _ h =>
      (peekchar_as h k).in1 fun _ _ _ _ h => readRadix_as k b fuel _ _ h) (ok1 h _)

theorem readHexDigits_as (k : Nat) : ∀ (fuel : Nat) {s s' : St} {w : In} (c n : Int), R u s s' → Lift (Q (T u)) (readHexDigits k fuel s w c n) (readHexDigits k fuel s' w c n)
  | 0, _, _, _, _, _, _ => lift_loop
  | fuel + 1, _, _, _, c, _, h => by
    simp only [readHexDigits]
    refine .ite (.read rfl fun _ => .read rfl fun _ => ?_) (ok1 h _)
    exact .ite (.read rfl fun n => (readchar_as h k).in1 fun _ _ _ _ h => (peekchar_as h k).in1 fun c _ _ _ h => readHexDigits_as k fuel c n h)
      (.ite (.read rfl fun n => (readchar_as h k).in1 fun _ _ _ _ h => (peekchar_as h k).in1 fun c _ _ _ h => readHexDigits_as k fuel c n h)
      (.read rfl fun n => (readchar_as h k).in1 fun _ _ _ _ h => (peekchar_as h k).in1 fun c _ _ _ h => readHexDigits_as k fuel c n h))

theorem readSign_as (h : R u s s') (k : Nat) : Lift (Q (Q (T u))) (readSign k s w) (readSign k s' w) :=
  (peekchar_as h k).in1 fun _ _ _ _ h => .ite ((readchar_as h k).in1 fun _ _ _ _ h => (peekchar_as h k).in1 fun _ _ _ _ h => ok2 h _ _) (ok2 h _ _)

theorem readBinaryOctal_as (h : R u s s') (k fuel : Nat) (b : Int) : Lift (Q (T u)) (readBinaryOctal k fuel b s w) (readBinaryOctal k fuel b s' w) :=
  (readSign_as h k).in2 fun _ _ _ _ _ h => (readRadix_as k b fuel _ _ h).in1 fun _ _ _ _ h => (makeNumber_as h _).with fun _ _ _ h => ok1 h _

theorem readHex_as (h : R u s s') (k fuel : Nat) : Lift (Q (T u)) (readHex k fuel s w) (readHex k fuel s' w) :=
  (readSign_as h k).in2 fun _ _ _ _ _ h => (readHexDigits_as k fuel _ _ h).in1 fun _ _ _ _ h => (makeNumber_as h _).with fun _ _ _ h => ok1 h _

theorem readOctalChar_as (k : Nat) : ∀ (fuel : Nat) {s s' : St} {w : In} (c p : Int), R u s s' → Lift (Q (T u)) (readOctalChar k fuel s w c p) (readOctalChar k fuel s' w c p)
  | 0, _, _, _, _, _, _ => lift_loop
  | fuel + 1, _, _, _, _, _, h => .ite (.read rfl fun _ => (readchar_as h k).in1 fun _ _ _ _ h => .read rfl fun _ =>
      (peekchar_as h k).in1 fun _ _ _ _ h => readOctalChar_as k fuel _ _ h) (ok1 h _)

theorem readCharName_as (k : Nat) : ∀ (fuel : Nat) {s s' : St} {w : In} (p : Int) (buf : List Byte), R u s s' →
    Lift (Q (T u)) (readCharName k fuel s w p buf) (readCharName k fuel s' w p buf)
  | 0, _, _, _, _, _, _ => lift_loop
  | fuel + 1, _, _, _, _, _, h => .ite ((readchar_as h k).in1 fun _ _ _ _ h => .read rfl fun _ => (peekchar_as h k).in1 fun _ _ _ _ h => readCharName_as k fuel _ _ h)
      (.read rfl fun _ => ok1 h _)

theorem readCharacter_as (h : R u s s') (k fuel : Nat) : Lift (Q (T u)) (readCharacter k fuel s w) (readCharacter k fuel s' w) :=
  (readchar_as h k).in1 fun c _ _ _ h => (peekchar_as h k).in1 fun p _ _ _ h =>
    .ite ((readOctalChar_as k fuel _ _ h).in1 fun _ _ _ _ h => (makeChar_as h _).with fun _ _ _ h => ok1 h _)
    (.ite ((readHex_as h k fuel).in1 fun n _ _ _ h => .read (cdr h n) fun _ => (makeChar_as h _).with fun _ _ _ h => ok1 h _)
    (.ite ((readCharName_as k fuel _ _ h).in1 fun buf _ _ _ h => by
        dsimp only
        cases charNames.lookup buf with
        | none => exact lift_err
        | some c => exact (makeChar_as h _).with fun _ _ _ h => ok1 h _)
      ((makeChar_as h _).with fun _ _ _ h => ok1 h _)))

theorem readEscape_as (h : R u s s') (k fuel : Nat) (c : Int) : Lift (Q (T u)) (readEscape k fuel s w c) (readEscape k fuel s' w c) := by
  unfold readEscape
  cases escapes.lookup c with
  | some e => exact ok1 h _
  | none => exact .ite ((readHex_as h k fuel).in1 fun n _ _ _ h => .read (cdr h n) fun _ => ok1 h _) (ok1 h _)

theorem readStringLoop_as (k : Nat) : ∀ (fuel : Nat) {s s' : St} {w : In} (buf : List Byte), R u s s' →
    Lift (Q (T u)) (readStringLoop k fuel s w buf) (readStringLoop k fuel s' w buf)
  | 0, _, _, _, _, _ => lift_loop
  | fuel + 1, _, _, _, _, h => by
    simp only [readStringLoop, mx h]
    refine .ite lift_err ((readchar_as h k).in1 fun _ _ _ _ h => .ite (ok1 h _) (.ite ((readchar_as h k).in1 fun _ _ _ _ h => (readEscape_as h k fuel _).in1 fun _ _ _ _ h =>
      .read (by rw [mx h]) fun _ => readStringLoop_as k fuel _ h) (.read (by rw [mx h]) fun _ => readStringLoop_as k fuel _ h)))

theorem readString_as (h : R u s s') (k fuel : Nat) : Lift (Q (T u)) (readString k fuel s w) (readString k fuel s' w) :=
  (readStringLoop_as k fuel _ h).in1 fun _ _ _ _ h => .read (by rw [mx h]) fun _ => (makeString_as h _).with fun _ _ _ h => ok1 h _

theorem readKeyword_as (h : R u s s') (k fuel : Nat) : Lift (Q (T u)) (readKeyword k fuel s w) (readKeyword k fuel s' w) :=
  (readchar_as h k).in1 fun _ _ _ _ h => (readIdentifierOrNumber_as h k fuel _).in1 fun x _ _ _ h => (makeString_as h _).with fun _ _ _ h =>
    .read (tag h x) fun _ => .ite lift_err (Lift.with (u := u) (.read (rd h x) fun _ => makeCell_as h _ _ _) fun _ _ _ h => ok1 h _)

theorem carP_as (h : R u s s') (x : Int) : carP s' x = carP s x := by simp only [carP, rd h]
theorem cdrP_as (h : R u s s') (x : Int) : cdrP s' x = cdrP s x := by simp only [cdrP, rd h]

theorem fillFromList_as : ∀ (fuel : Nat) {s s' : St} (p x : Int), R u s s' → Lift (R u) (fillFromList fuel s p x) (fillFromList fuel s' p x)
  | 0, _, _, _, _, _ => lift_loop
  | fuel + 1, _, _, _, x, h => .ite (okS h) (.read (carP_as h x) fun _ => (setEntry_as h _ _).bind fun _ _ h => .read (cdrP_as h x) fun _ => fillFromList_as fuel _ _ h)

theorem listToVector_as (h : R u s s') (fuel : Nat) (x : Int) : Lift (P u) (listToVector s fuel x) (listToVector s' fuel x) :=
  .read (length_as h fuel x) fun _ => (makeVector_as h _ _).with fun v _ _ h => .read (cdr h v) fun _ => (fillFromList_as fuel _ _ h).bind fun _ _ h => okP h _

theorem wrap_as (h : R u s s') (n x : Int) : Lift (P u) (wrap s n x) (wrap s' n x) := (cons_as h _ _).with fun _ _ _ h => cons_as h _ _

/-! ### Data -/

mutual
theorem readSexp_as (k : Nat) : ∀ (fuel : Nat) {s s' : St} {w : In} (c : Int), R u s s' → Lift (Q (T u)) (readSexp k fuel s w c) (readSexp k fuel s' w c)
  | 0, _, _, _, _, _ => by unfold readSexp; exact lift_loop
  | fuel + 1, _, _, _, _, h => by
    unfold readSexp
    exact .ite (ok1 h _) (.ite ((readLineComment_as k fuel _ h).in1 fun _ _ _ _ h => readSexp_as k fuel _ h)
      (.ite ((readchar_as h k).in1 fun _ _ _ _ h => readSexp_as k fuel _ h)
      (.ite ((readchar_as h k).in1 fun _ _ _ _ h => readList_as k fuel _ h)
      (.ite (ok1 h _)
      (.ite ((readchar_as h k).in1 fun _ _ _ _ h => readHash_as k fuel _ h)
      (.ite (readQuoted_as k fuel _ h)
      (.ite ((peekchar_as h k).in1 fun _ _ _ _ h => .ite ((readchar_as h k).in1 fun _ _ _ _ h => readQuoted_as k fuel _ h) (readQuoted_as k fuel _ h))
      (.ite (readQuoted_as k fuel _ h)
      (.ite (readString_as h k fuel)
      (.ite ((peekchar_as h k).in1 fun _ _ _ _ h => .ite (readIdentifierOrNumber_as h k fuel _) (ok1 h _))
      (readIdentifierOrNumber_as h k fuel _)))))))))))
theorem readQuoted_as (k : Nat) : ∀ (fuel : Nat) {s s' : St} {w : In} (c : Int), R u s s' → Lift (Q (T u)) (readQuoted k fuel s w c) (readQuoted k fuel s' w c)
  | 0, _, _, _, _, _ => by unfold readQuoted; exact lift_loop
  | fuel + 1, _, _, _, _, h => by
    unfold readQuoted
    exact (readchar_as h k).in1 fun _ _ _ _ h => (readSexp_as k fuel _ h).in1 fun _ _ _ _ h => (wrap_as h _ _).with fun _ _ _ h => ok1 h _
theorem readList_as (k : Nat) : ∀ (fuel : Nat) {s s' : St} {w : In} (c : Int), R u s s' → Lift (Q (T u)) (readList k fuel s w c) (readList k fuel s' w c)
  | 0, _, _, _, _, _ => by unfold readList; exact lift_loop
  | fuel + 1, _, _, _, _, h => by
    unfold readList
    exact (eatWhitespace_as k fuel _ h).in1 fun _ _ _ _ h => .ite (ok1 h _) (.ite lift_err ((readSexp_as k fuel _ h).in1 fun _ _ _ _ h =>
      .ite ((readchar_as h k).in1 fun _ _ _ _ h => (readList_as k fuel _ h).in1 fun l _ _ _ h => .read (car h l) fun _ => ok1 h _)
        ((readchar_as h k).in1 fun _ _ _ _ h => (readList_as k fuel _ h).in1 fun l _ _ _ h => (cons_as h _ _).with fun _ _ _ h => ok1 h _)))
theorem readHash_as (k : Nat) : ∀ (fuel : Nat) {s s' : St} {w : In} (c : Int), R u s s' → Lift (Q (T u)) (readHash k fuel s w c) (readHash k fuel s' w c)
  | 0, _, _, _, _, _ => by unfold readHash; exact lift_loop
  | fuel + 1, _, _, _, _, h => by
    unfold readHash
    exact .ite ((readchar_as h k).in1 fun _ _ _ _ h => (readBlockComment_as k _ fuel _ h).in fun _ _ _ h => (readchar_as h k).in1 fun _ _ _ _ h => readSexp_as k fuel _ h)
      (.ite (ok1 h _) (.ite (ok1 h _)
      (.ite ((peekchar_as h k).in1 fun _ _ _ _ h => .ite ((readchar_as h k).in1 fun _ _ _ _ h => readQuoted_as k fuel _ h) (readQuoted_as k fuel _ h))
      (.ite (readQuoted_as k fuel _ h) (.ite (readQuoted_as k fuel _ h) (.ite (readKeyword_as h k fuel)
      (.ite (readBinaryOctal_as h k fuel _) (.ite (readBinaryOctal_as h k fuel _) (.ite (readHex_as h k fuel) (.ite (readCharacter_as h k fuel)
      (.ite ((readchar_as h k).in1 fun _ _ _ _ h => (readList_as k fuel _ h).in1 fun _ _ _ _ h => (listToVector_as h k _).with fun _ _ _ h => ok1 h _)
      (.ite ((readchar_as h k).in1 fun _ _ _ _ h => (readSexp_as k fuel _ h).in1 fun _ _ _ _ h => (readchar_as h k).in1 fun _ _ _ _ h => readSexp_as k fuel _ h)
      ((readchar_as h k).in1 fun _ _ _ _ h => readSexp_as k fuel _ h)))))))))))))
end

theorem readEnv_as (h : R u s s') (k fuel : Nat) : Lift (Q (T u)) (readEnv k fuel s w) (readEnv k fuel s' w) :=
  (readchar_as h k).in1 fun _ _ _ _ h => readSexp_as k fuel _ h

/-- What the reader makes of the input does not depend on the sizes. -/
theorem readAll_as (k fuel : Nat) : ∀ (more : Nat) {s s' : St} {w : In}, R u s s' → Lift (Q (T u)) (readAll k fuel more s w) (readAll k fuel more s' w)
  | 0, _, _, _, _ => lift_loop
  | more + 1, _, _, _, h => (readEnv_as h k fuel).in1 fun _ _ _ _ h => .ite (ok1 h _) ((readAll_as k fuel more h).in1 fun _ _ _ _ h => (cons_as h _ _).with fun _ _ _ h => ok1 h _)

end Wide
end Mes
