import Verif.Props.Hash
import Verif.Props.Assoc
import Verif.Proof.ReadEnv
import Verif.Spec.Sample
/-
Properties C23–C27: what is written is read back (/repo/src/display.c, /repo/src/reader.c).

`Written m (.datum d last) t` (Spec/Syntax.lean): `t` is a text of the datum `d`.
`Den s H P x d`: the object at `x` is the datum `d`.
`Reading E s w H bs clear` (Spec/Reading.lean): the interpreter is ready to read the text `bs`, from a file or a string port.
-/
namespace Mes.Props
open Res Spec

/-! ## The start -/

/-- A memory in which nothing has been allocated. -/
def boot : St := { sampleN 100000 [] with maxString := 64 }

/-- A file with the text. -/
def fileOf (bs : List Byte) : In := ⟨0, fun _ => bs, fun _ => -1⟩

/-- The symbols known from the start. -/
def names0 : List (List Byte × Int) := stored predefined c_nil []

theorem fileOf_input (bs : List Byte) : FileInput (fileOf bs) bs true :=
  ⟨⟨Int.le_refl 0, by show (0 : Int) ≤ 512; decide⟩, .inl ⟨by show (-1 : Int) < 0; decide, rfl⟩⟩

/-- After `init_symbols` the interpreter is ready to read any file. -/
theorem reading_start (bs : List Byte) : ∃ s E, initSymbols boot 4 = ok s ∧ E.mx = 64 ∧ E.k = 1000 ∧ E.p = 0 ∧ Printable s ∧
    Reading E s (fileOf bs) names0 bs true ∧ ∀ A B, A + B * 5 ≤ 97000 → RoomFor E s A B := by
  obtain ⟨s, h1, h2, h3, h4, h5, h6, h7⟩ := C14_start (s := boot) (fuel := 4) (by decide) (by decide) (by decide)
  have tab := (internRun_inv h2).table
  have nm : ∀ name a, (name, a) ∈ names0 → HasText s a name := fun name a h => (tab.named _ h).1
  have key : ([40, 41], c_nil) ∈ names0 ∧ ([35, 116], c_t) ∈ names0 ∧ ([35, 102], c_f) ∈ names0 ∧ (circularName, c_circular) ∈ names0 ∧
    ([46], c_dot) ∈ names0 := by decide +kernel
  have hq : ∀ q ∈ quotes, lookup q.2.1 names0 = some q.2.2 := by decide +kernel
  refine ⟨s, ⟨0, 64, 1000, 500, 0, (s.cell (bucketsOf s s.symbols)).cdr⟩, h1, rfl, rfl, rfl,
    ⟨h3, nm _ _ key.1, nm _ _ key.2.1, nm _ _ key.2.2.1, nm _ _ key.2.2.2.1⟩,
    ⟨tab, rfl, .file rfl (fileOf_input bs), ⟨h3, h5, nm _ _ key.2.2.1, nm _ _ key.2.2.2.2, hq⟩, ?_⟩, fun A B hAB => ⟨h5, ?_⟩⟩
  · rw [h7]; exact Nat.le_refl 64
  · have : boot.arena = 100000 := rfl
    simp only [Env.u, stringCells, g_cells]
    omega

theorem names0_length : names0.length ≤ 200 := by decide +kernel

/-- The same with other input. -/
theorem reading_file {E : Env} {s : St} {w : In} {H : List (List Byte × Int)} {bs : List Byte} {clear : Bool}
    (h : Reading E s w H bs clear) (hp : E.p = 0) (bs' : List Byte) : Reading E s (fileOf bs') H bs' true :=
  ⟨h.sym, h.buckets, .file hp (fileOf_input bs'), h.names, h.mx⟩

/-! ## C23 -/

/-- Writing the object `x` and reading the text back, followed by anything that cannot belong to it, gives the datum `d`
again, which is `equal?` to `x`, and leaves the text behind. -/
def RoundTrip (E : Env) (s : St) (H : List (List Byte × Int)) (x : Int) (d : Datum) : Prop :=
  ∃ n t, (∀ fuel, n ≤ fuel → writeP s fuel x = ok t) ∧ ∀ w rest clear, Reading E s w H (t ++ rest) clear → Ends rest →
    RoomFor E s (20 * t.length) (4 * t.length + 1) → H.length + t.length < E.k → ∀ fuel, 2 * t.length + 2 ≤ fuel →
    ∃ y s' w' H', readEnv E.k fuel s w = ok (y, s', w') ∧ Reading E s' w' H' rest false ∧ Den s' H' E.touch y d ∧
      ∃ n, ∀ fuel, n ≤ fuel → equal2 s' fuel x y = ok c_t

theorem C23_partial {E : Env} (hm : 45 ≤ E.mx) {s : St} {H : List (List Byte × Int)} {x : Int} {d : Datum} (hs : Printable s)
    (hd : Den s H E.touch x d) (hw : Writable E.mx d) : RoundTrip E s H x d := by
  obtain ⟨⟨n, t, last, h1, h2⟩, -⟩ := printOk hm hs hd hw
  refine ⟨n, t, fun fuel hf => by simp only [writeP, h1 fuel hf, ok_bind], fun w rest clear h he hr hk fuel hf => ?_⟩
  obtain ⟨y, s', w', H', k1, k2, k3⟩ := readEnv_ok hm .noGap h2 (fun _ => he) (by simpa using h) (by simpa using hr) (fuel := fuel)
    (by simpa using hf) (by simpa using hk)
  refine ⟨y, s', w', H', k1, k3.rd, k2, (d.tree H').size, fun fuel hf => ?_⟩
  have hs' := k3.shown h hs
  exact (C12_equal ((k3.den h hd).rep hs') (k2.rep hs') hf).1.2 rfl

/-- Integers of 64 bits. -/
def RoundTripInt : Prop := ∀ (E : Env) (s : St) (H : List (List Byte × Int)) (x n : Int), 45 ≤ E.mx → Printable s →
  -(2 ^ 63) ≤ n → n < 2 ^ 63 → IsNum s x n → RoundTrip E s H x (.num n)

/-- `write` prints 4294967296 as 0. -/
theorem C23_int_false : ¬ RoundTripInt := by
  intro h
  obtain ⟨s, E, -, e1, e2, e3, hs, h0, hr⟩ := reading_start [48]
  have x1 := push_ext s (num 4294967296)
  have R := h0.alloc (A := 1) x1 (by simp)
  have hroom := hr 1 0 (by decide)
  have hc : (s.push (num 4294967296)).cell s.free = num 4294967296 := by simp
  have hv : (s.push (num 4294967296)).Valid s.free := (hroom.cells (k := 1) (by decide)).free_valid _
  have hn : IsNum (s.push (num 4294967296)) s.free 4294967296 := ⟨hv, by rw [hc]; rfl, by rw [hc]; rfl⟩
  obtain ⟨n, t, h1, h2⟩ := h E _ names0 s.free 4294967296 (by omega) (R.shown h0 hs) (by decide) (by decide) hn
  have ht : t = [48] := by
    have h1 := h1 (n + 1) (by omega)
    simp only [writeP, displayHelper, St.rd_ok hv, hc, ok_bind] at h1
    have : writeInt (num 4294967296).cdr = ok [48] := by decide
    simp only [num] at h1 this
    simp only [this, ok_bind] at h1
    injection h1 with h1
    exact h1.symm
  subst ht
  have hl := names0_length
  obtain ⟨y, s', w', H', k1, k2, k3, -⟩ := h2 (fileOf [48]) [] true R.rd trivial (R.room (hr 21 5 (by decide)) (by decide) (by decide))
    (by rw [e2]; simp; omega) 4 (by decide)
  have hw := Written.num (m := E.mx) (ds := [48]) none (by decide) (by decide) (by rw [e1]; decide) (by decide)
  obtain ⟨y', s'', w'', H'', m1, m2, -⟩ := readEnv_ok (by omega) .noGap hw (rest := []) (fun _ => trivial) R.rd
    (R.room (hr 21 5 (by decide)) (by decide) (by decide)) (fuel := 4) (by decide) (by rw [e2]; simp; omega)
  rw [k1] at m1
  injection m1 with m1
  injection m1 with m1 m1'
  injection m1' with m1' m1''
  subst m1 m1'
  have a : (s'.cell y).cdr = 4294967296 := by cases k3 with | num h => exact h.value
  have b : (s'.cell y).cdr = 0 := by
    have m2 : Den s' H'' E.touch y (.num 0) := m2
    cases m2 with | num h => exact h.value
  omega

/-- What the text is read as does not depend on who says so. -/
theorem readEnv_text {E : Env} {s : St} {w : In} {H : List (List Byte × Int)} {a b : List Byte} {y : Int} {s' : St} {w' : In} {fuel : Nat}
    {bs : List Byte} (hm : 45 ≤ E.mx) (h0 : Reading E s w H bs true) (hb : Ident E.mx b) (hbs : bs = b)
    (hr : RoomFor E s (20 * b.length) (4 * b.length + 1)) (hf : 2 * b.length + 2 ≤ fuel) (hk : H.length + b.length < E.k)
    (h : readEnv E.k fuel s w = ok (y, s', w')) (ha : HasText s' y a) : a = b := by
  obtain ⟨y', s'', w'', H'', m1, m2, -⟩ := readEnv_ok hm .noGap (.sym hb) (rest := []) (fun _ => trivial) (by simpa [hbs] using h0)
    (by simpa using hr) (fuel := fuel) (by simpa using hf) (by simpa using hk)
  rw [h] at m1
  injection m1 with m1
  injection m1 with m1 m1'
  injection m1' with m1' m1''
  subst m1 m1'
  cases m2 with | sym h => exact ha.inj h

/-- Symbols of any name that can be read. -/
def RoundTripSymbol : Prop := ∀ (E : Env) (s : St) (H : List (List Byte × Int)) (x : Int) (name : List Byte), 45 ≤ E.mx → Printable s →
  Ident E.mx name → Den s H E.touch x (.sym name) → RoundTrip E s H x (.sym name)

theorem ident_ab : Ident 64 [97, 92, 98] := by
  refine ⟨⟨by decide, by decide, by decide, by decide⟩, ⟨⟨97, by decide, by decide⟩, fun b d r h => ?_, by decide⟩, fun b r h => ?_, fun r h => ?_⟩
  · simp only [List.cons.injEq] at h; rw [← h.1]; exact fun e => absurd e (by decide)
  · simp only [List.cons.injEq] at h; rw [← h.1]; decide
  · simp at h

theorem ident_abb : Ident 64 [97, 92, 92, 98] := by
  refine ⟨⟨by decide, by decide, by decide, by decide⟩, ⟨⟨97, by decide, by decide⟩, fun b d r h => ?_, by decide⟩, fun b r h => ?_, fun r h => ?_⟩
  · simp only [List.cons.injEq] at h; rw [← h.1]; exact fun e => absurd e (by decide)
  · simp only [List.cons.injEq] at h; rw [← h.1]; decide
  · simp at h

/-- The symbol `a\b` is written as `a\\b`, which is another symbol. -/
theorem C23_symbol_false : ¬ RoundTripSymbol := by
  intro h
  obtain ⟨s0, E, -, e1, e2, e3, hs0, h0, hr⟩ := reading_start [97, 92, 98]
  have hl := names0_length
  have h45 : 45 ≤ E.mx := by omega
  have i1 : Ident E.mx [97, 92, 98] := by rw [e1]; exact ident_ab
  have i2 : Ident E.mx [97, 92, 92, 98] := by rw [e1]; exact ident_abb
  obtain ⟨x, s, w, H, k1, k2, R⟩ := readEnv_ok h45 .noGap (.sym i1) (rest := []) (fun _ => trivial) (by simpa using h0)
    (hr _ _ (by decide)) (fuel := 8) (by decide) (by rw [e2]; simp; omega)
  have hs := R.shown h0 hs0
  have hH := R.length
  simp only [List.length_cons, List.length_nil] at hH
  obtain ⟨n, t, h1, h2⟩ := h E s H x _ h45 hs i1 k2
  cases k2 with
  | sym hx ht hlk hne =>
    have et : t = [97, 92, 92, 98] := by
      have h1 := h1 (n + 1) (by omega)
      simp only [writeP, displayHelper, St.rd_ok hx.valid, ok_bind] at h1
      rcases ht with ht | ht <;> rw [ht] at h1 <;> simp only [fdwriteString_ok hx, ok_bind] at h1 <;>
        (injection h1 with h1; exact h1.symm)
    subst et
    have h0' := reading_file R.rd e3 ([97, 92, 92, 98] ++ [])
    have hroom : RoomFor E s (20 * 4) (4 * 4 + 1) := R.room (hr 200 100 (by decide)) (by decide) (by decide)
    obtain ⟨y, s', w', H', m1, m2, m3, -⟩ := h2 _ [] true h0' trivial hroom (by rw [e2]; simp; omega) 20 (by decide)
    cases m3 with
    | sym hy => exact absurd (readEnv_text h45 h0' i2 rfl hroom (by decide) (by rw [e2]; simp; omega) m1 hy) (by decide)

/-- Lists of a symbol and a small number. -/
def RoundTripList : Prop := ∀ (E : Env) (s : St) (H : List (List Byte × Int)) (x n : Int) (name : List Byte), 45 ≤ E.mx → Printable s →
  Ident E.mx name → Plain name → 0 ≤ n → n < 10 → Den s H E.touch x (.pair (.sym name) (.pair (.num n) .nil)) →
  RoundTrip E s H x (.pair (.sym name) (.pair (.num n) .nil))

theorem ident_circular : Ident 64 circularName := by
  refine ⟨⟨by decide, by decide, by decide, by decide⟩, ⟨⟨42, by decide, by decide⟩, fun b d r h => ?_, by decide⟩, fun b r h => ?_, fun r h => ?_⟩
  · simp only [circularName, List.cons.injEq] at h; rw [← h.1]; exact fun e => absurd e (by decide)
  · simp only [circularName, List.cons.injEq] at h; rw [← h.1]; decide
  · simp [circularName] at h

/-- Writing the list `(*circular* 1)` follows the number as if it were a pointer. -/
theorem C23_circular_false : ¬ RoundTripList := by
  intro h
  obtain ⟨s0, E, -, e1, e2, e3, hs0, h0, hr⟩ := reading_start []
  have hr0 := hr 3 0 (by decide)
  let c0 : Cell := num 1
  let c1 : Cell := pair s0.free c_nil
  let c2 : Cell := pair c_circular (s0.free + 1)
  let s1 := s0.push c0
  let s2 := s1.push c1
  let s3 := s2.push c2
  have f1 : s1.free = s0.free + 1 := rfl
  have f2 : s2.free = s0.free + 2 := by show s1.free + 1 = _; omega
  have f3 : s3.free = s0.free + 3 := by show s2.free + 1 = _; omega
  have R1 := h0.alloc (A := 1) (push_ext s0 c0) (by simp)
  have R2 := R1.rd.alloc (A := 1) (push_ext s1 c1) (Int.le_refl (s1.free + 1))
  have R3 := R2.rd.alloc (A := 1) (push_ext s2 c2) (Int.le_refl (s2.free + 1))
  have R := (R1.trans R2).trans R3
  have hb := h0.names.base
  simp only [c_symbol_max] at hb
  have cell2 : s3.cell (s0.free + 2) = c2 := by rw [← f2]; simp [s3]
  have cell1 : s3.cell (s0.free + 1) = c1 := by
    rw [(push_ext s2 c2).same (s0.free + 1) (by omega) id, ← f1]; simp [s2]
  have cell0 : s3.cell s0.free = c0 := by
    rw [(push_ext s2 c2).same s0.free (by omega) id, (push_ext s1 c1).same s0.free (by omega) id]; simp [s1]
  have hs := R.shown h0 hs0
  have d0 : Den s3 names0 E.touch s0.free (.num 1) := .num ⟨⟨by omega, by omega⟩, by rw [cell0]; rfl, by rw [cell0]; rfl⟩
  have d1 : Den s3 names0 E.touch (s0.free + 1) (.pair (.num 1) .nil) :=
    .pair ⟨by omega, by omega⟩ (by rw [cell1]; rfl) (by rw [cell1]; exact d0) (by rw [cell1]; exact .nil)
  have dc : Den s3 names0 E.touch c_circular (.sym circularName) :=
    .sym hs.circ (.inr (by rw [hs.fixed _ (by decide) (by decide)]; rfl)) (by decide +kernel) (by decide)
  have d2 : Den s3 names0 E.touch (s0.free + 2) (.pair (.sym circularName) (.pair (.num 1) .nil)) :=
    .pair ⟨by omega, by omega⟩ (by rw [cell2]; rfl)
      (by rw [cell2]; exact dc)
      (by rw [cell2]; exact d1)
  have h45 : 45 ≤ E.mx := by omega
  obtain ⟨n, t, h1, -⟩ := h E s3 names0 (s0.free + 2) 1 circularName h45 hs (by rw [e1]; exact ident_circular)
    (by unfold Plain; decide) (by decide) (by decide) d2
  have h1 := h1 (n + 3) (by omega)
  have v0 : s3.Valid s0.free := ⟨by omega, by omega⟩
  have v1 : s3.Valid (s0.free + 1) := ⟨by omega, by omega⟩
  have v2 : s3.Valid (s0.free + 2) := ⟨by omega, by omega⟩
  have n0 : ¬ s0.free = c_closure := by simp only [c_closure]; omega
  have n1 : s0.free + 1 ≠ c_nil := by simp only [c_nil]; omega
  have bad : s3.rd 0 = ub := rfl
  have w1 : displayHelper s3 true (n + 3) 5 (s0.free + 2) false = ub := by
    simp only [displayHelper, displayCirc, St.rd_ok v2, St.car, St.rd_ok v1, St.rd_ok v0, cell2, cell1, cell0, ok_bind, c2, c1, c0, pair, num,
      if_true, decide_eq_true n0, if_pos n1, bad]
    rfl
  simp only [writeP, w1] at h1
  cases h1

/-- A datum with everything that can be written: `(a "x\n" #:k . #(-7 #t #\space ()))`. -/
def example1 : Datum :=
  .pair (.sym [97]) (.pair (.str [120, 10]) (.pair (.kw [107]) (.vec [.num (-7), .bool true, .chr 32, .nil])))

theorem ident_a : Ident 64 [97] := by
  refine ⟨⟨by decide, by decide, by decide, by decide⟩, ⟨⟨97, by decide, by decide⟩, fun b d r h => ?_, by decide⟩, fun b r h => ?_, fun r h => ?_⟩
  · simp at h
  · simp only [List.cons.injEq] at h; rw [← h.1]; decide
  · simp at h

theorem example1_writable : Writable 64 example1 := by
  refine .pair (.sym ident_a (by unfold Plain; decide)) (.pair (.str (by decide)) (.pair (.kw ⟨by decide, by decide, by decide, by decide⟩
    ⟨⟨107, by decide, by decide⟩, fun b d r h => ?_, by decide⟩ (by unfold Plain; decide)) (.vec ?_) (by simp)) (by simp)) (by simp [circularName])
  · simp at h
  · intro e he
    simp only [List.mem_cons, List.not_mem_nil, or_false] at he
    rcases he with rfl | rfl | rfl | rfl
    · exact .num (by decide)
    · exact .bool true
    · exact .chr (by decide)
    · exact .nil

/-- It can be read at the start, and then it is written and read back. -/
example : ∃ E s H x, 45 ≤ E.mx ∧ Printable s ∧ Den s H E.touch x example1 ∧ Writable E.mx example1 ∧ ∃ w, Reading E s w H [] false := by
  let t : List Byte := [40, 97, 32, 34, 120, 92, 110, 34, 32, 35, 58, 107, 32, 46, 32, 35, 40, 45, 55, 32, 35, 116, 32, 35, 92, 115, 112, 97, 99, 101,
    32, 40, 41, 41, 41]
  obtain ⟨s0, E, -, e1, e2, e3, hs0, h0, hr⟩ := reading_start t
  have hl := names0_length
  have hsp : Space [32] := .white (by decide) .none
  have kw : Written E.mx (.datum (.kw [107]) true) [35, 58, 107] := by
    rw [e1]
    exact .kw ⟨by decide, by decide, by decide, by decide⟩ ⟨⟨107, by decide, by decide⟩, fun b d r h => by simp at h, by decide⟩
  have str : Written E.mx (.datum (.str [120, 10]) false) [34, 120, 92, 110, 34] :=
    .str (t := [120, 92, 110]) (.plain (by decide) (by decide) (.escape (by decide) .nil)) (by rw [e1]; decide)
  have v4 : Written E.mx (.tail .nil) [41] := .close (w := []) .none
  have v3 : Written E.mx (.tail (.list [.nil])) [32, 40, 41, 41] :=
    .element (w := [32]) (g := []) (t := [40, 41]) hsp .noGap (.inl rfl) (.list v4) (by simp) v4
  have v2 : Written E.mx (.tail (.list [.chr 32, .nil])) ([32, 35, 92, 115, 112, 97, 99, 101] ++ [32, 40, 41, 41]) :=
    .element (w := [32]) (g := []) (t := [35, 92, 115, 112, 97, 99, 101]) hsp .noGap (.inl rfl) (.chrName (c := 32) (by decide)) (by decide) v3
  have v1 : Written E.mx (.tail (.list [.bool true, .chr 32, .nil])) ([32, 35, 116] ++ ([32, 35, 92, 115, 112, 97, 99, 101] ++ [32, 40, 41, 41])) :=
    .element (w := [32]) (g := []) (t := [35, 116]) hsp .noGap (.inl rfl) (.bool true) (by decide) v2
  have n7 : Written E.mx (.datum (.num (-7)) true) [45, 55] :=
    .num (ds := [55]) (some true) (by decide) (by decide) (by rw [e1]; decide) (by decide)
  have vec : Written E.mx (.datum (.vec [.num (-7), .bool true, .chr 32, .nil]) false)
      [35, 40, 45, 55, 32, 35, 116, 32, 35, 92, 115, 112, 97, 99, 101, 32, 40, 41, 41] :=
    .vec (.element (w := []) (g := []) (t := [45, 55]) .none .noGap (.inl rfl) n7 (by decide) v1)
  have l4 := Written.dotted (w1 := [32]) (w2 := [32]) (w3 := []) hsp hsp .noGap (.inl rfl) vec (by simp) .none (by intro b hb; simp at hb; subst hb; decide)
  have l3 := Written.lastElement (w := [32]) hsp .noGap (.inl rfl) kw (fun _ => by simp [Ends, IsDelimiter]) l4
  have l2 := Written.element (w := [32]) hsp .noGap (.inl rfl) str (by simp) l3
  have l1 := Written.element (w := []) .none .noGap (.inl rfl) (.sym (by rw [e1]; exact ident_a)) (fun _ => by simp [Ends, IsDelimiter]) l2
  have wt : Written E.mx (.datum example1 false) t := by simpa [t, example1] using Written.list l1
  obtain ⟨x, s, w, H, k1, k2, R⟩ := readEnv_ok (fuel := 100) (by omega) .noGap wt (rest := []) (by simp) (by simpa using h0) (hr _ _ (by decide)) (by decide)
    (by rw [e2]; simp [t]; omega)
  exact ⟨E, s, H, x, by omega, R.shown h0 hs0, k2, by rw [e1]; exact example1_writable, w, R.rd⟩

/-! ## C24 -/

/-- An optional sign and decimal digits are read as the number; up to a limit 87 below the largest `long`. -/
theorem C24_decimal_partial {E : Env} {s : St} {w : In} {H : List (List Byte × Int)} {clear : Bool} {fuel : Nat} (hm : 45 ≤ E.mx)
    (sign : Option Bool) (ds rest : List Byte) (hds : ds ≠ []) (hd : ∀ c ∈ ds, IsDec c) (hl : ds.length ≤ E.mx)
    (hv : numVal 10 ds ≤ maxLiteral) (he : Ends rest) {t : List Byte}
    (ht : t = (match sign with | none => [] | some true => [45] | some false => [43]) ++ ds) (h : Reading E s w H (t ++ rest) clear)
    (hr : RoomFor E s (20 * t.length) (4 * t.length + 1)) (hf : 2 * t.length + 2 ≤ fuel) (hk : H.length + t.length < E.k) :
    ∃ x s' w' H', readEnv E.k fuel s w = ok (x, s', w') ∧ Reading E s' w' H' rest false ∧
      IsNum s' x (if sign = some true then -(numVal 10 ds : Int) else numVal 10 ds) := by
  have wt : Written E.mx (.datum (.num (if sign = some true then -(numVal 10 ds : Int) else numVal 10 ds)) true) t := by
    rw [ht]
    rcases sign with _ | _ | _ <;> exact .num _ hds hd hl hv
  obtain ⟨x, s', w', H', k1, k2, k3⟩ := readEnv_ok hm .noGap wt (fun _ => he) (by simpa using h)
    (by simpa using hr) (fuel := fuel) (by simpa using hf) (by simpa using hk)
  exact ⟨x, s', w', H', k1, k3.rd, by cases k2 with | num h => exact h⟩

/-- `#b`, `#o` and `#x`, an optional minus sign, and digits. -/
theorem C24_radix_partial {E : Env} {s : St} {w : In} {H : List (List Byte × Int)} {clear : Bool} {fuel : Nat} (hm : 45 ≤ E.mx)
    (neg : Bool) (c : Byte) (base : Nat) (ds rest : List Byte) (hc : (c, base) ∈ [((98 : Byte), 2), (111, 8), (120, 16)]) (hds : ds ≠ [])
    (hd : ∀ c ∈ ds, ∃ v, hexVal c = some v ∧ v < base) (hv : radixVal base ds ≤ maxLiteral) (he : Ends rest) {t : List Byte}
    (ht : t = [35, c] ++ (if neg then [45] else []) ++ ds) (h : Reading E s w H (t ++ rest) clear)
    (hr : RoomFor E s (20 * t.length) (4 * t.length + 1)) (hf : 2 * t.length + 2 ≤ fuel) (hk : H.length + t.length < E.k) :
    ∃ x s' w' H', readEnv E.k fuel s w = ok (x, s', w') ∧ Reading E s' w' H' rest false ∧
      IsNum s' x (if neg then -(radixVal base ds : Int) else radixVal base ds) := by
  subst ht
  obtain ⟨x, s', w', H', k1, k2, k3⟩ := readEnv_ok hm .noGap (.radix (m := E.mx) neg hc hds hd hv) (fun _ => he) (by simpa using h)
    (by simpa using hr) (fuel := fuel) (by simpa using hf) (by simpa using hk)
  exact ⟨x, s', w', H', k1, k3.rd, by cases k2 with | num h => exact h⟩

/-- Other words are read as the symbol of that name, the one that is in the symbol table. -/
theorem C24_symbol_partial {E : Env} {s : St} {w : In} {H : List (List Byte × Int)} {clear : Bool} {fuel : Nat} (hm : 45 ≤ E.mx)
    (name rest : List Byte) (hn : Ident E.mx name) (he : Ends rest) (h : Reading E s w H (name ++ rest) clear)
    (hr : RoomFor E s (20 * name.length) (4 * name.length + 1)) (hf : 2 * name.length + 2 ≤ fuel) (hk : H.length + name.length < E.k) :
    ∃ x s' w' H', readEnv E.k fuel s w = ok (x, s', w') ∧ Reading E s' w' H' rest false ∧ HasText s' x name ∧
      ((s'.cell x).tag = .symbol ∨ (s'.cell x).tag = .special) ∧ lookup name H' = some x ∧ ∀ a, lookup name H = some a → x = a := by
  obtain ⟨x, s', w', H', k1, k2, k3⟩ := readEnv_ok hm .noGap (.sym hn) (fun _ => he) (by simpa using h)
    (by simpa using hr) (fuel := fuel) (by simpa using hf) (by simpa using hk)
  refine ⟨x, s', w', H', k1, k3.rd, ?_⟩
  cases k2 with
  | sym h1 h2 h3 h4 =>
    refine ⟨h1, h2, h3, fun a ha => ?_⟩
    have := k3.grown _ _ h4 ha
    rw [h3] at this
    exact Option.some.inj this

/-- The numbers of 32 bits are printed as the usual numeral. -/
theorem C24_print_partial {s : St} {fuel : Nat} {x n : Int} (h : IsNum s x n) (h1 : -(2 ^ 31) ≤ n) (h2 : n < 2 ^ 31) :
    ∃ t, writeP s (fuel + 1) x = ok t ∧ displayP s (fuel + 1) x = ok t ∧ IsSigned 10 n t := by
  have e : toInt32 n = n := by unfold toInt32; omega
  obtain ⟨t, t1, t2⟩ := C.ntoab_signed (w := 64) (base := 10) (x := n) (by decide) (by decide) (by omega) (.inr (by omega))
  have t1 : writeInt n = ok t := by rw [writeInt, e]; exact t1
  refine ⟨t, ?_, ?_, t2⟩ <;>
  · simp only [writeP, displayP, displayHelper, St.rd_ok h.valid, ok_bind, h.tag, h.value, t1]
    rfl

/-- All decimal literals of 64-bit numbers. -/
def ReadInt : Prop := ∀ (s : St) (w : In) (ds : List Byte), FileInput w ds true → ds ≠ [] → (∀ c ∈ ds, IsDec c) → numVal 10 ds < 2 ^ 63 →
  ds.length ≤ s.maxString → Room s 1 → ∃ fuel x s' w', readEnv 1 fuel s w = ok (x, s', w') ∧ IsNum s' x (numVal 10 ds)

/-- Reading 9223372036854775807 overflows, as the code of the last digit is added before 48 is subtracted. -/
theorem C24_overflow_false : ¬ ReadInt := by
  intro h
  let ds : List Byte := [57, 50, 50, 51, 51, 55, 50, 48, 51, 54, 56, 53, 52, 55, 55, 53, 56, 48, 55]
  obtain ⟨fuel, x, s', w', h1, -⟩ := h boot (fileOf ds) ds (fileOf_input _) (by decide) (by decide) (by decide) (by decide) ⟨by decide, by decide⟩
  rcases Nat.lt_or_ge fuel 22 with hf | hf
  · have : ∀ f < 22, (readEnv 1 f boot (fileOf ds) >>= fun r => ok r.1) = loop ∨ (readEnv 1 f boot (fileOf ds) >>= fun r => ok r.1) = ub := by
      decide +kernel
    have := this fuel hf
    rw [h1] at this
    simp at this
  · obtain ⟨f, rfl⟩ : ∃ f, fuel = f + 22 := ⟨fuel - 22, by omega⟩
    have : readEnv 1 (f + 22) boot (fileOf ds) = ub := rfl
    rw [this] at h1
    cases h1

/-- Every word that is not a number is read as the symbol with that name. -/
def ReadWord : Prop := ∀ (s : St) (w : In) (n : Nat) (H : List (List Byte × Int)) (name : List Byte), SymTable s n H → FileInput w name true →
  WordText s.maxString name → (∀ b r, name = b :: r → b ≠ 35 ∧ b ≠ 39 ∧ b ≠ 44 ∧ b ≠ 46 ∧ b ≠ 96) →
  (¬ ∃ sign ds, name = sign ++ ds ∧ (sign = [] ∨ sign = [43] ∨ sign = [45]) ∧ ds ≠ [] ∧ ∀ c ∈ ds, IsDec c) → Room s 50 →
  ∀ k fuel, 10 ≤ k → 2 * name.length + 2 ≤ fuel → ∃ x s' w', readEnv k fuel s w = ok (x, s', w') ∧ HasText s' x name

/-- An empty symbol table. -/
def tableState' : St := { tableState with symbols := 116 }

theorem tableState'_ok : SymTable tableState' 2 [] := ⟨(tableState_ok stringKeys).same ⟨rfl, rfl⟩, by simp⟩

/-- `+1b` is read as the symbol `1b`. -/
theorem C24_sign_false : ¬ ReadWord := by
  intro h
  obtain ⟨x, s', w', h1, h2⟩ := h tableState' (fileOf [43, 49, 98]) 2 [] [43, 49, 98] tableState'_ok (fileOf_input _)
    ⟨by decide, by decide, by decide, by decide⟩ (by intro b r e; simp only [List.cons.injEq] at e; rw [← e.1]; decide)
    (by
      rintro ⟨sign, ds, e, h, -, h4⟩
      have : (98 : Byte) ∈ ds := by
        rcases h with rfl | rfl | rfl
        · rw [List.nil_append] at e; rw [← e]; decide
        · simp only [List.cons_append, List.nil_append, List.cons.injEq] at e; rw [← e.2]; decide
        · simp at e
      exact absurd (h4 98 this) (by decide)) ⟨by decide, by decide⟩ 10 8 (by decide) (by decide)
  have text : ∀ p : Int × St × In, readEnv 10 8 tableState' (fileOf [43, 49, 98]) = ok p → textOf p.2.1 p.1 = ok [49, 98] := by
    intro p hp; cases hp; rfl
  have := text _ h1
  rw [textOf_ok h2] at this
  exact absurd this (by decide)

/-! ## C25 -/

/-- Whatever space and comments a text has, it is read as its datum; so two texts of a datum are read as the same. -/
theorem C25_partial {E : Env} {s : St} {w : In} {H : List (List Byte × Int)} {clear : Bool} {fuel : Nat} (hm : 45 ≤ E.mx)
    {d : Datum} {g t rest : List Byte} {last : Bool} (hg : Written E.mx .gap g) (ht : Written E.mx (.datum d last) t)
    (he : last = true → Ends rest) (h : Reading E s w H (g ++ t ++ rest) clear)
    (hr : RoomFor E s (20 * (g.length + t.length)) (4 * (g.length + t.length) + 1)) (hf : 2 * (g.length + t.length) + 2 ≤ fuel)
    (hk : H.length + (g.length + t.length) < E.k) :
    ∃ x s' w' H', readEnv E.k fuel s w = ok (x, s', w') ∧ Reading E s' w' H' rest false ∧ Den s' H' E.touch x d ∧
      ∀ y e, Den s H E.touch y e → Den s' H' E.touch y e := by
  obtain ⟨x, s', w', H', k1, k2, k3⟩ := readEnv_ok hm hg ht he h hr hf hk
  exact ⟨x, s', w', H', k1, k3.rd, k2, fun y e hy => k3.den h hy⟩

/-- A datum comment can be the last thing in a list of one digit. -/
def CommentLast : Prop := ∀ (s : St) (w : In) (a b : Byte), IsDec a → IsDec b → FileInput w [40, a, 32, 35, 59, b, 41] true → Room s 100 →
  ∀ k fuel, 10 ≤ k → 16 ≤ fuel → ∃ x s' w', readEnv k fuel s w = ok (x, s', w') ∧ IsNum s' (s'.cell x).car (numVal 10 [a]) ∧ (s'.cell x).cdr = c_nil

/-- `(1 #;2)` fails: the closing parenthesis is taken for a datum. -/
theorem C25_last_false : ¬ CommentLast := by
  intro h
  obtain ⟨x, s', w', h1, -⟩ := h (sample []) (fileOf [40, 49, 32, 35, 59, 50, 41]) 49 50 (by decide) (by decide) (fileOf_input _)
    ⟨by decide, by decide⟩ 10 16 (by decide) (by decide)
  have e : (match readEnv 10 16 (sample []) (fileOf [40, 49, 32, 35, 59, 50, 41]) with | ok _ => true | _ => false) = false := by decide +kernel
  rw [h1] at e
  exact Bool.noConfusion e

/-! ## C26 -/

/-- A text of several data is read as the list of them, in order, and nothing is left; no datum may be the empty list. -/
theorem C26_partial {E : Env} {s : St} {w : In} {H : List (List Byte × Int)} {clear : Bool} {fuel more : Nat} (hm : 45 ≤ E.mx)
    {ds : List Datum} {t : List Byte} (hp : Program E.mx ds t) (hn : ∀ d ∈ ds, d ≠ .nil) (hs : Printable s) (h : Reading E s w H t clear)
    (hr : RoomFor E s (21 * t.length) (4 * t.length + 1)) (hf : 2 * t.length + 2 ≤ fuel) (hk : H.length + t.length < E.k)
    (hmore : ds.length < more) :
    ∃ x s' w' H', readAll E.k fuel more s w = ok (x, s', w') ∧ Reading E s' w' H' [] false ∧ Den s' H' E.touch x (.list ds) := by
  obtain ⟨x, s', w', H', k1, k2, k3⟩ := readAll_ok hm hp hn hs h hr hf hk hmore
  exact ⟨x, s', w', H', k1, k3.rd, k2⟩

/-- One datum is taken from the text, and what follows is left there. -/
theorem C26_one {E : Env} {s : St} {w : In} {H : List (List Byte × Int)} {clear : Bool} {fuel : Nat} (hm : 45 ≤ E.mx)
    {d : Datum} {ds : List Datum} {bs : List Byte} (hp : Program E.mx (d :: ds) bs) (h : Reading E s w H bs clear)
    (hr : RoomFor E s (20 * bs.length) (4 * bs.length + 1)) (hf : 2 * bs.length + 2 ≤ fuel) (hk : H.length + bs.length < E.k) :
    ∃ x s' w' H' rest, readEnv E.k fuel s w = ok (x, s', w') ∧ Reading E s' w' H' rest false ∧ Den s' H' E.touch x d ∧
      Program E.mx ds rest ∧ rest.length < bs.length ∧ rest <:+ bs ∧ ∀ y e, Den s H E.touch y e → Den s' H' E.touch y e := by
  cases hp with
  | @more g t r d ds last hg ht he hp =>
    have := ht.pos
    simp only [List.length_append] at hr hf hk
    obtain ⟨x, s', w', H', k1, k2, k3⟩ := readEnv_ok hm hg ht he h (hr.mono (by omega) (by omega)) (fuel := fuel) (by omega) (by omega)
    exact ⟨x, s', w', H', r, k1, k3.rd, k2, hp, by simp only [List.length_append]; omega, List.suffix_append _ _, fun y e hy => k3.den h hy⟩

/-- At the end of the text the reader answers the empty list. -/
theorem C26_end {E : Env} {s : St} {w : In} {H : List (List Byte × Int)} {clear : Bool} {fuel : Nat} (hm : 45 ≤ E.mx)
    {bs : List Byte} (hp : Program E.mx [] bs) (h : Reading E s w H bs clear)
    (hr : RoomFor E s (20 * bs.length) (4 * bs.length + 1)) (hf : 2 * bs.length + 2 ≤ fuel) (hk : H.length + bs.length < E.k) :
    ∃ s' w' H', readEnv E.k fuel s w = ok (c_nil, s', w') ∧ Reading E s' w' H' [] false := by
  cases hp with
  | done hg =>
    obtain ⟨s', w', H', k1, k2⟩ := readEnv_end hm hg h hr (fuel := fuel) hf hk
    exact ⟨s', w', H', k1, k2.rd⟩

/-- ` ; x\n 12 #t#|y|#` -/
example : Program 64 [.num 12, .bool true] ([32, 59, 32, 120, 10, 32] ++ [49, 50] ++ ([32] ++ [35, 116] ++ [35, 124, 121, 124, 35])) := by
  refine .more (last := true) (.blank (by decide) (.line (cs := [32, 120]) (by decide) (.blank (by decide) .noGap)))
    (.num (ds := [49, 50]) none (by decide) (by decide) (by decide) (by decide)) (by decide)
    (.more (last := false) (.blank (by decide) .noGap) (.bool true) (by decide) (.done (.block (t := 124) (cs := [121]) (.inr rfl) ?_ .noGap)))
  decide

/-- The state after start-up is ready to read such a text. -/
example : ∃ E s w H t, 45 ≤ E.mx ∧ Program E.mx [.num 12, .bool true] t ∧ Printable s ∧ Reading E s w H t true ∧
    RoomFor E s (21 * t.length) (4 * t.length + 1) ∧ H.length + t.length < E.k := by
  obtain ⟨s, E, -, e1, e2, e3, hs, h0, hr⟩ := reading_start ([] ++ [49, 50] ++ ([32] ++ [35, 116] ++ []))
  have hl := names0_length
  refine ⟨E, s, _, _, _, by omega, ?_, hs, h0, hr _ _ (by decide), by rw [e2]; simp; omega⟩
  exact .more (last := true) .noGap (.num (ds := [49, 50]) none (by decide) (by decide) (by rw [e1]; decide) (by decide)) (by decide)
    (.more (last := false) (.blank (by decide) .noGap) (.bool true) (by simp) (.done .noGap))

/-- All data of a text are read, whatever they are. -/
def ReadAllData : Prop := ∀ (E : Env) (s : St) (w : In) (H : List (List Byte × Int)) (ds : List Datum) (t : List Byte), 45 ≤ E.mx →
  Program E.mx ds t → Printable s → Reading E s w H t true → RoomFor E s (21 * t.length) (4 * t.length + 1) → H.length + t.length < E.k →
  ∀ fuel more, 2 * t.length + 2 ≤ fuel → ds.length < more →
    ∃ x s' w' H', readAll E.k fuel more s w = ok (x, s', w') ∧ Den s' H' E.touch x (.list ds)

/-- The text `()1` is taken to end at the empty list. -/
theorem C26_nil_false : ¬ ReadAllData := by
  intro h
  obtain ⟨s, E, -, e1, e2, e3, hs, h0, hr⟩ := reading_start [40, 41, 49]
  have hl := names0_length
  have p1 : Program E.mx [.nil, .num 1] ([] ++ [40, 41] ++ ([] ++ [49] ++ [])) :=
    .more .noGap (.list (.close (w := []) .none)) (by simp)
      (.more .noGap (.num (ds := [49]) none (by decide) (by decide) (by rw [e1]; decide) (by decide)) (by simp [Ends]) (.done .noGap))
  obtain ⟨x, s', w', H', h1, h2⟩ := h E s _ names0 _ _ (by omega) p1 hs h0 (hr _ _ (by decide)) (by rw [e2]; simp; omega) 8 3
    (by decide) (by decide)
  obtain ⟨w, e⟩ : ∃ w, readAll E.k 8 3 s (fileOf [40, 41, 49]) = ok (c_nil, s, w) := ⟨_, rfl⟩
  rw [e] at h1
  cases h1
  have nt : (s.cell c_nil).tag = .special := by rw [hs.fixed c_nil (by decide) (by decide), if_pos (by decide)]
  generalize c_nil = x at h2 nt
  cases h2 with
  | pair hv ht => rw [nt] at ht; cases ht

/-! ## C27 -/

/-- Every text of a string, with escapes or without them, is read as the string. -/
theorem C27_read_partial {E : Env} {s : St} {w : In} {H : List (List Byte × Int)} {clear : Bool} {fuel : Nat} (hm : 45 ≤ E.mx)
    {bs t rest : List Byte} (ht : StringBody bs t) (hl : bs.length < E.mx) (h : Reading E s w H (34 :: t ++ 34 :: rest) clear)
    (hr : RoomFor E s (20 * (t.length + 2)) (4 * (t.length + 2) + 1)) (hf : 2 * (t.length + 2) + 2 ≤ fuel)
    (hk : H.length + (t.length + 2) < E.k) :
    ∃ x s' w' H', readEnv E.k fuel s w = ok (x, s', w') ∧ Reading E s' w' H' rest false ∧ IsString s' x bs := by
  obtain ⟨x, s', w', H', k1, k2, k3⟩ := readEnv_ok hm .noGap (.str ht hl) (rest := rest) (by simp) (by simpa using h) (by simpa using hr)
    (fuel := fuel) (by simpa using hf) (by simpa using hk)
  cases k2 with
  | str h => exact ⟨x, s', w', H', k1, k3.rd, h⟩

/-- `write` prints a string as such a text between double quotes. -/
theorem C27_write {s : St} {x : Int} {bs : List Byte} (h : IsString s x bs) {fuel : Nat} (hf : 1 ≤ fuel) :
    ∃ t, writeP s fuel x = ok (34 :: t ++ [34]) ∧ StringBody bs t := by
  obtain ⟨fuel, rfl⟩ : ∃ f, fuel = f + 1 := ⟨fuel - 1, by omega⟩
  refine ⟨bs.flatMap fdwriteStringChar, ?_, stringBody_flatMap bs⟩
  simp only [writeP, displayHelper, St.rd_ok h.valid, ok_bind, h.tag, fdwriteString_ok h.toHasText]
  rfl

/-- Writing a string and reading the text gives the string. -/
theorem C27_partial {E : Env} {s : St} {w : In} {H : List (List Byte × Int)} {clear : Bool} {x : Int} {bs rest : List Byte} (hm : 45 ≤ E.mx)
    (hx : IsString s x bs) (hl : bs.length < E.mx) : ∃ t, (∀ fuel, 1 ≤ fuel → writeP s fuel x = ok t) ∧
    (Reading E s w H (t ++ rest) clear → RoomFor E s (20 * t.length) (4 * t.length + 1) → H.length + t.length < E.k →
      ∀ fuel, 2 * t.length + 2 ≤ fuel → ∃ y s' w' H', readEnv E.k fuel s w = ok (y, s', w') ∧ Reading E s' w' H' rest false ∧ IsString s' y bs) := by
  obtain ⟨t, -, hb⟩ := C27_write hx (fuel := 1) (Nat.le_refl 1)
  refine ⟨34 :: bs.flatMap fdwriteStringChar ++ [34], fun fuel hf => ?_, fun h hr hk fuel hf => ?_⟩
  · obtain ⟨fuel, rfl⟩ : ∃ f, fuel = f + 1 := ⟨fuel - 1, by omega⟩
    simp only [writeP, displayHelper, St.rd_ok hx.valid, ok_bind, hx.tag, fdwriteString_ok hx.toHasText]
    rfl
  · simp only [List.length_append, List.length_cons, List.length_nil] at hr hk hf
    exact C27_read_partial hm (stringBody_flatMap bs) hl (by simpa using h) hr (fuel := fuel) hf hk

/-- The text `\a\t\n"\` between the quotes. -/
example : StringBody [7, 9, 10, 34, 92, 65] [92, 97, 92, 116, 10, 92, 34, 92, 92, 65] :=
  .escape (by decide) (.escape (by decide) (.plain (by decide) (by decide) (.escape (by decide) (.escape (by decide)
    (.plain (by decide) (by decide) .nil)))))

/-- Every string that can be made can be read. -/
def StringLiteral : Prop := ∀ (s : St) (w : In) (bs t : List Byte), StringBody bs t → bs.length ≤ s.maxString →
  FileInput w (34 :: t ++ [34]) true → Room s (stringCells bs.length) →
  ∀ k fuel, 10 ≤ k → 2 * (t.length + 2) + 2 ≤ fuel → ∃ x s' w', readEnv k fuel s w = ok (x, s', w') ∧ IsString s' x bs

/-- A literal of `MAX_STRING` bytes is written past the end of the buffer (here `MAX_STRING` is 2). -/
theorem C27_length_false : ¬ StringLiteral := by
  intro h
  obtain ⟨x, s', w', h1, -⟩ := h { sample [] with maxString := 2 } (fileOf [34, 97, 97, 34]) [97, 97] [97, 97]
    (.plain (by decide) (by decide) (.plain (by decide) (by decide) .nil)) (by decide) (fileOf_input _) ⟨by decide, by decide⟩ 10 10 (by decide)
    (by decide)
  cases h1

/-! ## C28 -/

/-- The reader ends on every file. -/
def ReadTerminates : Prop := ∀ (s : St) (w : In) (bs : List Byte) (k : Nat), FileInput w bs true → ∃ fuel, readEnv k fuel s w ≠ loop

theorem readBlockComment_eof {k : Nat} {s : St} {w : In} (h : FileInput w [] true) :
    ∀ fuel, readBlockComment k 124 fuel s w eof = loop
  | 0 => rfl
  | fuel + 1 => by
    have : readchar s w k = ok (eof, s, w) := readchar_eof (m := 0) (p := 0) (.file rfl h)
    rw [readBlockComment, if_neg (by decide), this]
    exact readBlockComment_eof h fuel

/-- It does not end on a block comment that is not closed. -/
theorem C28_comment_false : ¬ ReadTerminates := by
  intro h
  obtain ⟨fuel, h⟩ := h (sample []) (fileOf [35, 124]) [35, 124] 0 (fileOf_input _)
  apply h
  rcases fuel with _ | _ | fuel
  · rfl
  · rfl
  · have he : FileInput { fileOf [35, 124] with file := fun f => if f = 0 then [] else if f = 0 then [124] else [35, 124] } [] true :=
      ⟨⟨Int.le_refl 0, by show (0 : Int) ≤ 512; decide⟩, .inl ⟨by show (-1 : Int) < 0; decide, rfl⟩⟩
    have e : readEnv 0 (fuel + 2) (sample []) (fileOf [35, 124]) = (do
      let (s, w) ← readBlockComment 0 124 fuel (sample [])
        { fileOf [35, 124] with file := fun f => if f = 0 then [] else if f = 0 then [124] else [35, 124] } eof
      let (c, s, w) ← readchar s w 0
      readSexp 0 fuel s w c) := rfl
    rw [e, readBlockComment_eof he]
    rfl

/-- On a text of data, each call of the reader takes at least one character until the end is reached. -/
theorem C28_partial {E : Env} {s : St} {w : In} {H : List (List Byte × Int)} {clear : Bool} {fuel : Nat} (hm : 45 ≤ E.mx)
    {ds : List Datum} {bs : List Byte} (hp : Program E.mx ds bs) (h : Reading E s w H bs clear)
    (hr : RoomFor E s (20 * bs.length) (4 * bs.length + 1)) (hf : 2 * bs.length + 2 ≤ fuel) (hk : H.length + bs.length < E.k) :
    ∃ x s' w' H' rest, readEnv E.k fuel s w = ok (x, s', w') ∧ Reading E s' w' H' rest false ∧
      ((ds = [] ∧ rest = [] ∧ x = c_nil) ∨ rest.length < bs.length) := by
  cases ds with
  | nil =>
    obtain ⟨s', w', H', k1, k2⟩ := C26_end hm hp h hr hf hk
    exact ⟨c_nil, s', w', H', [], k1, k2, .inl ⟨rfl, rfl, rfl⟩⟩
  | cons d ds =>
    obtain ⟨x, s', w', H', rest, k1, k2, -, -, k3, -⟩ := C26_one hm hp h hr hf hk
    exact ⟨x, s', w', H', rest, k1, k2, .inr k3⟩

/-- From every file that can be read at all a finite list of data is read. -/
def ReadAllTerminates : Prop := ∀ (s : St) (w : In) (bs : List Byte) (k : Nat), FileInput w bs true → c_symbol_max ≤ s.free → Room s (20 * bs.length) →
  ∃ fuel more r, readAll k fuel more s w = r ∧ r ≠ loop ∧ r ≠ abort

theorem readEnv_cr {k fuel : Nat} {s : St} {w : In} {clear : Bool} (h : FileInput w [13] clear) :
    readEnv k fuel s w = loop ∨ readEnv k fuel s w = abort ∨
      ∃ x s' w', readEnv k fuel s w = ok (x, s', w') ∧ x = s.free ∧ s.free < s'.free ∧ FileInput w' [13] false := by
  obtain ⟨w1, e1, i1, -⟩ := fdgetc_ok h
  obtain ⟨w2, e2, i2, -⟩ := fdungetc_ok i1 13
  have r1 : readchar s w k = ok (13, s, w1) := by simp only [readchar, if_pos h.fd.1, e1, ok_bind]; rfl
  have r2 : unreadchar s w1 k 13 = ok (13, s, w2) := by
    simp only [unreadchar, if_pos i1.fd.1]
    rw [show (13 : Int) = code 13 from rfl, e2]; rfl
  rcases fuel with _ | _ | fuel
  · left; rw [readEnv, r1]; rfl
  · left; rw [readEnv, r1]; rfl
  have e : readEnv k (fuel + 2) s w = (do
      let (_, s, w) ← unreadchar s w1 k 13
      let (x, s) ← makeNumber s 0
      ok (x, s, w)) := by rw [readEnv, r1]; rfl
  rw [e, r2]
  simp only [ok_bind, makeNumber, makeCell]
  split
  · right; left; rfl
  · right; right
    exact ⟨_, _, _, rfl, rfl, Int.lt_succ _, i2⟩

/-- A carriage return outside of parentheses is read as the number 0, and is not taken from the input. -/
theorem C28_return_false : ¬ ReadAllTerminates := by
  intro h
  obtain ⟨fuel, more, r, h1, h2, h3⟩ := h (sample []) (fileOf [13]) [13] 0 (fileOf_input _) (by decide) ⟨by decide, by decide⟩
  have key : ∀ more s w clear, c_symbol_max ≤ s.free → FileInput w [13] clear →
      readAll 0 fuel more s w = loop ∨ readAll 0 fuel more s w = abort := by
    intro more
    induction more with
    | zero => exact fun s w _ _ _ => .inl rfl
    | succ more ih =>
      intro s w clear hs hw
      rcases readEnv_cr (k := 0) (fuel := fuel) (s := s) hw with e | e | ⟨x, s', w', e, rfl, hlt, hw'⟩
      · left; rw [readAll, e]; rfl
      · right; rw [readAll, e]; rfl
      · have hne : s.free ≠ c_nil := by simp only [c_symbol_max, c_nil] at *; omega
        rw [readAll, e]
        simp only [ok_bind]
        rw [if_neg hne]
        rcases ih s' w' false (by omega) hw' with e | e
        · left; rw [e]; rfl
        · right; rw [e]; rfl
  rcases key more (sample []) _ _ (by decide) (fileOf_input [13]) with e | e
  · exact h2 (h1 ▸ e)
  · exact h3 (h1 ▸ e)

end Mes.Props
