import Verif.Proof.Port
import Verif.Proof.Lists
import Verif.Spec.Sample
/-
Property C29: character input (/repo/src/posix.c, /repo/lib/mes/fdgetc.c, /repo/lib/mes/fdungetc.c).

`Input m k p s w bs clear` (Spec/Port.lean): the text `bs` is still to come from the current input port.
-/
namespace Mes.Props
open Res Spec

/-- The operations on the current input port. -/
inductive Op where
  | read
  | peek
  | unread (b : Byte)

/-- What they give when `bs` is still to come: the characters, −1 at the end, and what is left.  A character can be pushed back
directly after it has been read; `last` is the character that has just been read. -/
def session : List Op → (last : Option Byte) → (bs : List Byte) → Option (List Int × List Byte)
  | [], _, bs => some ([], bs)
  | .read :: ops, _, [] => (session ops none []).map fun r => (-1 :: r.1, r.2)
  | .read :: ops, _, b :: bs => (session ops (some b) bs).map fun r => ((b.toNat : Int) :: r.1, r.2)
  | .peek :: ops, _, [] => (session ops none []).map fun r => (-1 :: r.1, r.2)
  | .peek :: ops, _, b :: bs => (session ops none (b :: bs)).map fun r => ((b.toNat : Int) :: r.1, r.2)
  | .unread b :: ops, last, bs =>
    if last = some b then (session ops none (b :: bs)).map fun r => ((b.toNat : Int) :: r.1, r.2) else none

/-- What the interpreter gives: the codes of the characters that read-char, peek-char and unread-char return. -/
def perform (k : Nat) : List Op → St → In → Res (List Int × St × In)
  | [], s, w => ok ([], s, w)
  | .read :: ops, s, w => do
    let (x, s, w) ← readCharP s w k
    let c ← s.rd x
    let (cs, s, w) ← perform k ops s w
    ok (c.cdr :: cs, s, w)
  | .peek :: ops, s, w => do
    let (x, s, w) ← peekCharP s w k
    let c ← s.rd x
    let (cs, s, w) ← perform k ops s w
    ok (c.cdr :: cs, s, w)
  | .unread b :: ops, s, w => do
    let (i, s) ← makeChar s b.toNat
    let (x, s, w) ← unreadP s w k i
    let c ← s.rd x
    let (cs, s, w) ← perform k ops s w
    ok (c.cdr :: cs, s, w)

/-- Every sequence of operations gives what it should, from a file or a string port. -/
theorem C29_partial {m k : Nat} {p : Int} : ∀ {ops : List Op} {s : St} {w : In} {bs rest : List Byte} {clear : Bool} {last : Option Byte}
    {out : List Int}, Input m k p s w bs clear → (∀ b, last = some b → clear = true ∧ (p ≠ 0 → b.toNat < 128 ∧ bs.length < m)) →
    Room s (ops.length * (stringCells m + 1)) → session ops last bs = some (out, rest) →
    ∃ s' w', perform k ops s w = ok (out, s', w') ∧ Input m k p s' w' rest false
  | [], s, w, bs, rest, clear, last, out, h, hl, hr, he => by
    cases he
    exact ⟨s, w, rfl, h.weaken⟩
  | op :: ops, s, w, bs, rest, clear, last, out, h, hl, hr, he => by
    have hp : 0 ≤ stringCells m := by unfold stringCells; omega
    have e : ((op :: ops).length : Int) * (stringCells m + 1) = ops.length * (stringCells m + 1) + (stringCells m + 1) := by
      rw [List.length_cons, Int.natCast_add, Int.add_mul]; simp
    rw [e] at hr
    have hn : 0 ≤ (ops.length : Int) * (stringCells m + 1) := Int.mul_nonneg (by omega) (by omega)
    have hsm : ∀ b : Byte, toInt32 (code b) = code b := fun b => toInt32_id (by have := code_nonneg b; omega) (by have := code_lt b; omega)
    have ho := fun s1 w1 bs1 cl la out1 => C29_partial (m := m) (k := k) (p := p) (ops := ops) (s := s1) (w := w1) (bs := bs1) (rest := rest) (clear := cl) (last := la)
      (out := out1)
    generalize (ops.length : Int) * (stringCells m + 1) = q at hr hn ho
    -- the rest, when an operation has given the character `c` in the memory `s1`
    have step : ∀ {s1 : St} {w1 : In} {bs1 : List Byte} {cl : Bool} {la : Option Byte} {c : Int} {out1 : List Int} (h1 : Input m k p s1 w1 bs1 cl),
        (∀ b, la = some b → cl = true ∧ (p ≠ 0 → b.toNat < 128 ∧ bs1.length < m)) → Room s1 (q + 1) → toInt32 c = c →
        session ops la bs1 = some (out1, rest) → ∃ s' w', (do
          let (x, s, w) ← (do let (x, s) ← makeChar s1 c; ok (x, s, w1))
          let cc ← s.rd x
          let (cs, s, w) ← perform k ops s w
          ok (cc.cdr :: cs, s, w)) = ok (c :: out1, s', w') ∧ Input m k p s' w' rest false := by
      intro s1 w1 bs1 cl la c out1 h1 hla hr1 hc hs
      obtain ⟨s', w', k1, k2⟩ := ho _ w1 bs1 cl la out1 (h1.ext (push_ext s1 { tag := .char, car := 0, cdr := toInt32 c })) hla
        (hr1.push _) hs
      rw [hc] at k1
      refine ⟨s', w', ?_, k2⟩
      rw [makeChar_ok (hr1.mono (by omega)), hc]
      simp only [ok_bind, St.rd_ok (hr1.free_valid _), k1, St.push_cell_free]
    have opt : ∀ {o : Option (List Int × List Byte)} {c : Int}, (o.map fun r => (c :: r.1, r.2)) = some (out, rest) →
        ∃ out1, o = some (out1, rest) ∧ out = c :: out1 := by
      intro o c ho
      cases o with
      | none => cases ho
      | some r => cases ho; exact ⟨r.1, rfl, rfl⟩
    cases op with
    | read =>
      cases bs with
      | nil =>
        obtain ⟨out1, he', rfl⟩ := opt he
        obtain ⟨s', w', k1, k2⟩ := step h (la := none) (c := -1) (by simp) (hr.mono (by omega)) (by decide) he'
        refine ⟨s', w', ?_, k2⟩
        simp only [perform, readCharP, readchar_eof h, ok_bind] at k1 ⊢
        exact k1
      | cons b bs =>
        obtain ⟨out1, he', rfl⟩ := opt he
        obtain ⟨s1, w1, r1, r2, r3, r4⟩ := readchar_ok h (hr.mono (by omega))
        obtain ⟨s', w', k1, k2⟩ := step r2 (la := some b) (c := code b) (fun c hc => by cases hc; exact ⟨rfl, h.fits⟩)
          (hr.step r3 (by omega)) (hsm b) he'
        refine ⟨s', w', ?_, k2⟩
        simp only [perform, readCharP, r1, ok_bind] at k1 ⊢
        exact k1
    | peek =>
      cases bs with
      | nil =>
        obtain ⟨out1, he', rfl⟩ := opt he
        obtain ⟨s', w', k1, k2⟩ := step h (la := none) (c := -1) (by simp) (hr.mono (by omega)) (by decide) he'
        refine ⟨s', w', ?_, k2⟩
        simp only [perform, peekCharP, peekchar_eof h, ok_bind] at k1 ⊢
        exact k1
      | cons b bs =>
        obtain ⟨out1, he', rfl⟩ := opt he
        obtain ⟨w1, r1, r2⟩ := peekchar_ok h
        obtain ⟨s', w', k1, k2⟩ := step r2 (la := none) (c := code b) (by simp) (hr.mono (by omega)) (hsm b) he'
        refine ⟨s', w', ?_, k2⟩
        simp only [perform, peekCharP, r1, ok_bind] at k1 ⊢
        exact k1
    | unread b =>
      rw [session] at he
      split at he
      · rename_i hlast
        obtain ⟨out1, he', rfl⟩ := opt he
        obtain ⟨rfl, hfit⟩ := hl b hlast
        have hv := hr.free_valid { tag := .char, car := 0, cdr := code b }
        have hr1 : Room (s.push { tag := .char, car := 0, cdr := code b }) (q + stringCells m) := (hr.mono (by omega)).push _
        obtain ⟨s1, w1, r1, r2, r3, r4⟩ := unreadchar_ok (b := b) (h.ext (push_ext s { tag := .char, car := 0, cdr := code b }))
          (hr1.mono (by omega)) hfit
        obtain ⟨s', w', k1, k2⟩ := ho s1 w1 _ _ none out1 r2 (by simp) (hr1.step r3 (by omega)) he'
        refine ⟨s', w', ?_, k2⟩
        have hne : s.free ≠ p := by
          have := hr.base
          simp only [c_symbol_max] at this
          cases h with
          | file hp => omega
          | string h => have := (portLoop_ok h.port).2.1.2; omega
        have hmk : makeChar s b.toNat = ok (s.free, s.push { tag := .char, car := 0, cdr := code b }) := by
          rw [show (b.toNat : Int) = code b from rfl, makeChar_ok (hr.mono (by omega)), hsm]
        simp only [perform, unreadP, hmk, ok_bind, St.cdr_ok hv]
        rw [St.push_cell_free]
        simp only [hsm, r1, ok_bind, St.rd_ok (r3.valid hv), k1, r3.same _ hv.2 (fun h => hne h.1), St.push_cell_free]
        rfl
      · cases he

/-- What `open-input-string` and `set-current-input-port` make: a port with the text of the string, and with a number of its own:
the next one below those of the `ps.length` ports that were there. -/
theorem C29_open {s : St} {w : In} {x : Int} {bs : List Byte} {k : Nat} {ps : List Int} (hx : IsString s x bs) (ha : ∀ b ∈ bs, b.toNat < 128)
    (hl : bs.length ≤ s.maxString) (hp : ListOf s (fun a b => a = b) s.ports ps) (hk : ps.length < k) (hsmall : ps.length < 2 ^ 31 - 2)
    (hw : 0 ≤ w.stdin) (hr : Room s 3) : ∃ p s1 v s2 w2, openInputString s k x = ok (p, s1) ∧ setCurrentInputPort s1 w k p = ok (v, s2, w2) ∧
      Input bs.length k p s2 w2 bs true ∧ (s2.cell p).car = -ps.length - 2 ∧ Ext { s with ports := s1.ports } s2 ∧ s2.free = s.free + 3 := by
  have h1 : length__ s k s.ports = ok (ps.length : Int) := by
    have := lengthLoop_ok hp hk 0
    simpa [length__] using this
  generalize hn : (ps.length : Int) = n at *
  have hc : makeCell s .port (-n - 2) x = ok (s.free, s.push { tag := .port, car := -n - 2, cdr := x }) :=
    makeCell_ok (hr.mono (by decide)) ..
  generalize hcp : ({ tag := .port, car := -n - 2, cdr := x } : Cell) = cp at hc
  have hr1 : Room (s.push cp) (1 + 1) := Room.push (k := 2) hr _
  have hv1 : (s.push cp).Valid s.free := hr.free_valid _
  obtain ⟨cq, hcq⟩ : ∃ cq : Cell, cq = { tag := .pair, car := s.free, cdr := s.ports } := ⟨_, rfl⟩
  have hr2 := hr1.push cq
  have hv2 : ((s.push cp).push cq).Valid (s.push cp).free := hr1.free_valid _
  have hopen : openInputString s k x = ok (s.free, { (s.push cp).push cq with ports := (s.push cp).free }) := by
    simp only [openInputString, h1, ok_bind, hc, cons_ok (hr1.mono (by decide))]
    rw [hcq]; rfl
  generalize hs1 : ({ (s.push cp).push cq with ports := (s.push cp).free } : St) = s1 at hopen
  have hcell : ∀ a, s1.cell a = ((s.push cp).push cq).cell a := fun a => by rw [← hs1]
  have hr1' : Room s1 1 := by rw [← hs1]; exact ⟨hr2.base, hr2.room⟩
  have hv1' : s1.Valid s.free := by rw [← hs1]; exact (push_ext _ cq).valid hv1
  have cellp : s1.cell s.free = cp := by rw [hcell, St.push_cell_lt _ hv1.2, St.push_cell_free]
  have cellq : s1.cell (s.push cp).free = cq := by rw [hcell, St.push_cell_free]
  have hn0 : 0 ≤ n := by omega
  have t32 : toInt32 (-n - 2) = -n - 2 := toInt32_id (by omega) (by omega)
  have hset : setCurrentInputPort s1 w k s.free = ok (s1.free, s1.push { tag := .number, car := 0, cdr := w.stdin }, { w with stdin := -n - 2 }) := by
    have x1 := push_ext s1 { tag := .number, car := 0, cdr := w.stdin }
    simp only [setCurrentInputPort, if_pos hw, makeNumber_ok hr1', ok_bind, St.rd_ok (x1.valid hv1'), St.push_cell_lt _ hv1'.2, cellp]
    rw [← hcp]
    simp only [t32]
    rfl
  have x1 := push_ext s1 { tag := .number, car := 0, cdr := w.stdin }
  have hports : s1.ports = (s.push cp).free := by rw [← hs1]
  have e0 : Ext { s with ports := s1.ports } s1 := by
    have := (push_ext s cp).trans (push_ext (s.push cp) cq)
    refine ⟨?_, fun a ha _ => ?_, ?_⟩
    · rw [← hs1]; exact this.le
    · rw [hcell]; exact this.same a ha id
    · rw [← hs1]; rfl
  have hx0 : IsString { s with ports := s1.ports } x bs := ⟨⟨hx.valid, hx.length, hx.bvalid, hx.btag, hx.bytes⟩, hx.tag⟩
  have hs : IsString s1 x bs := hx0.ext e0
  refine ⟨s.free, s1, _, _, _, hopen, hset, .string ⟨by show -n - 2 < 0; omega, ?_, ?_, ?_, ha, Nat.le_refl _, ?_⟩, ?_, e0.trans x1, ?_⟩
  · obtain ⟨k, rfl⟩ : ∃ f, k = f + 1 := ⟨k - 1, by omega⟩
    have hvq : s1.Valid (s.push cp).free := by rw [← hs1]; exact hv2
    have := PortIn.here (s := s1.push { tag := .number, car := 0, cdr := w.stdin }) (n := -n - 2) (k := k) (x := (s.push cp).free) (x1.valid hvq)
      (by rw [St.push_cell_lt _ hvq.2, cellq, hcq]) (by rw [St.push_cell_lt _ hvq.2, cellq, hcq]; exact x1.valid hv1')
      (by rw [St.push_cell_lt _ hvq.2, cellq, hcq]; show ((s1.push _).cell s.free).car = _; rw [St.push_cell_lt _ hv1'.2, cellp, ← hcp])
    rw [St.push_cell_lt _ hvq.2, cellq] at this
    rw [x1.ports, hports]
    rw [hcq] at this
    exact this
  · rw [St.push_cell_lt _ hv1'.2, cellp, ← hcp]
  · rw [St.push_cell_lt _ hv1'.2, cellp, ← hcp]
    exact hs.ext x1
  · rw [x1.maxString, e0.maxString]; exact hl
  · rw [St.push_cell_lt _ hv1'.2, cellp, ← hcp]
  · rw [← hs1]; simp; omega

/-- From a file with the text `abc`: peek, read and push back, then read it all. -/
example : session [.peek, .read, .unread 97, .read, .peek, .read, .read, .read, .peek] none [97, 98, 99] =
    some ([97, 97, 97, 97, 98, 98, 99, -1, -1], []) := by decide
example : Input 0 0 0 (sample []) ⟨0, fun _ => [97, 98, 99], fun _ => -1⟩ [97, 98, 99] true :=
  .file rfl ⟨by decide, .inl ⟨by decide, rfl⟩⟩
example : Room (sample []) (9 * (stringCells 0 + 1)) := ⟨by decide, by decide⟩

/-- A character that has been read can be pushed back after the next one has been looked at. -/
def UnreadAfterPeek : Prop := ∀ (s : St) (w : In) (a b : Byte) (bs : List Byte), FileInput w (a :: b :: bs) true → Room s 50 →
  ∃ k out s' w', perform k [.read, .peek, .unread a, .read] s w = ok (out, s', w')

/-- There is room for one character only: the interpreter aborts. -/
theorem C29_unread_false : ¬ UnreadAfterPeek := by
  intro h
  obtain ⟨k, out, s', w', h⟩ := h (sample []) ⟨0, fun _ => [97, 98], fun _ => -1⟩ 97 98 [] ⟨by decide, .inl ⟨by decide, rfl⟩⟩ ⟨by decide, by decide⟩
  cases h

/-- Reading a character from a string port gives the next byte of the string, whatever it is. -/
def StringBytes : Prop := ∀ (s : St) (w : In) (k : Nat) (p : Int) (b : Byte) (bs : List Byte), w.stdin < 0 → PortIn s w.stdin k s.ports p →
  (s.cell p).tag = .port → IsString s (s.cell p).cdr (b :: bs) → Room s (stringCells bs.length) → bs.length < s.maxString →
  ∃ s' w', readchar s w k = ok (code b, s', w')

/-- A string port: cell 116 is the list of ports, 117 the port, 118 the string and 119 its bytes. -/
def portState (b : Byte) : St :=
  { sample [pair 117 c_nil, ⟨.port, -2, 118, []⟩, ⟨.string, 1, 119, []⟩, ⟨.bytes, 2, 0, [b, 0]⟩] with ports := 116 }

/-- The byte 255 is taken for the end of the file. -/
theorem C29_byte_false : ¬ StringBytes := by
  intro h
  obtain ⟨s', w', h⟩ := h (portState 255) ⟨-2, fun _ => [], fun _ => -1⟩ 1 117 255 [] (by decide)
    (.here (x := 116) ⟨by decide, by decide⟩ rfl ⟨by decide, by decide⟩ rfl) rfl
    ⟨⟨⟨by decide, by decide⟩, rfl, ⟨by decide, by decide⟩, rfl, rfl⟩, rfl⟩ ⟨by decide, by decide⟩ (by decide)
  have e : ∃ s' w', readchar (portState 255) ⟨-2, fun _ => [], fun _ => -1⟩ 1 = ok (-1, s', w') := ⟨_, _, rfl⟩
  obtain ⟨s2, w2, e⟩ := e
  rw [h] at e
  injection e with e
  injection e with e
  exact absurd e (by decide)

/-- The string port of the example. -/
example : Input 1 1 117 (portState 97) ⟨-2, fun _ => [], fun _ => -1⟩ [97] true :=
  .string ⟨by decide, .here (x := 116) ⟨by decide, by decide⟩ rfl ⟨by decide, by decide⟩ rfl, rfl,
    ⟨⟨⟨by decide, by decide⟩, rfl, ⟨by decide, by decide⟩, rfl, rfl⟩, rfl⟩, by decide, by decide⟩

end Mes.Props
