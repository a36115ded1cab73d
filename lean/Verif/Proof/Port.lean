import Verif.Proof.Text
import Verif.Spec.Port
namespace Mes
open Res Spec

variable {s s' : St} {w : In} {P : Int → Prop} {p : Int} {m k : Nat} {bs : List Byte} {b : Byte} {clear : Bool}

theorem Spec.Frame.ports (h : Frame P s s') : s'.ports = s.ports := by
  have := congrArg St.ports h.rest; simpa using this

theorem code_nonneg (b : Byte) : 0 ≤ code b := by unfold code; omega
theorem code_lt (b : Byte) : code b < 256 := by have := b.toNat_lt; unfold code; omega

theorem sc_of_ascii (h : b.toNat < 128) : sc b = code b := by unfold sc code; rw [if_pos h]

/-! ### Files -/

theorem fdgetc_ok (h : FileInput w (b :: bs) clear) : ∃ w', fdgetc w w.stdin = ok (code b, w') ∧ FileInput w' bs true ∧
    w'.stdin = w.stdin := by
  obtain ⟨hfd, ht⟩ := h
  unfold fdgetc
  rw [if_neg (by omega)]
  rcases ht with ⟨h1, h2⟩ | ⟨-, b', h1, h2⟩
  · rw [if_neg (by omega), h2]
    have hcode : (if sc b < 0 then sc b + 256 else sc b) = code b := by
      have := b.toNat_lt
      unfold sc code
      split <;> split <;> omega
    refine ⟨{ w with file := fun f => if f = w.stdin then bs else w.file f }, ?_, ⟨hfd, .inl ⟨h1, by simp⟩⟩, rfl⟩
    simp only [hcode]
  · obtain ⟨rfl, rfl⟩ := List.cons.inj h2
    rw [if_pos (by rw [h1]; exact code_nonneg _), h1]
    exact ⟨_, rfl, ⟨hfd, .inl ⟨by simp, by simp⟩⟩, rfl⟩

theorem fdgetc_eof (h : FileInput w [] clear) : fdgetc w w.stdin = ok (eof, w) := by
  obtain ⟨hfd, ht⟩ := h
  unfold fdgetc
  rcases ht with ⟨h1, h2⟩ | ⟨-, b', h1, h2⟩
  · rw [if_neg (by omega), if_neg (by omega), h2]
  · cases h2

theorem fdungetc_ok (h : FileInput w bs true) (b : Byte) : ∃ w', fdungetc w (code b) w.stdin = ok (code b, w') ∧
    FileInput w' (b :: bs) false ∧ w'.stdin = w.stdin := by
  obtain ⟨hfd, ht⟩ := h
  have hc := code_nonneg b
  unfold fdungetc
  rcases ht with ⟨h1, h2⟩ | ⟨h, -⟩
  · rw [if_neg (by unfold eof; omega), if_neg (by omega), if_neg (by omega)]
    exact ⟨_, rfl, ⟨hfd, .inr ⟨rfl, b, by simp, by simp [h2]⟩⟩, rfl⟩
  · cases h

/-! ### String ports -/

theorem portLoop_ok {n x : Int} (h : PortIn s n k x p) : portLoop s n k x = ok p ∧ s.Valid p ∧ (s.cell p).car = n := by
  induction h with
  | here hx ht hp hn =>
    refine ⟨?_, hp, hn⟩
    have := hx.1
    simp only [portLoop]
    rw [if_pos (by omega)]
    simp only [St.car_ok hx, St.car_ok hp, ok_bind, if_pos hn]
  | next hx ht hp hpt hn _ ih =>
    refine ⟨?_, ih.2⟩
    have := hx.1
    simp only [portLoop]
    rw [if_pos (by omega)]
    simp only [St.car_ok hx, St.car_ok hp, St.cdr_ok hx, ok_bind, if_neg hn, ih.1]

/-- The ports are still there after a change of the text of the port at `p`, and of cells that are no pairs or ports. -/
theorem PortIn.frame {n x : Int} (h : PortIn s n k x p) (hf : Frame P s s')
    (hp : ∀ a, s.Valid a → P a → (s.cell a).tag ≠ .pair ∧ ((s.cell a).tag = .port → a = p)) (hpp : (s'.cell p).car = (s.cell p).car) :
    PortIn s' n k x p := by
  induction h with
  | here hx ht hv hn =>
    have e := hf.same _ hx.2 (fun h => (hp _ hx h).1 ht)
    have := PortIn.here (s := s') (n := n) (k := ‹Nat›) (x := ‹Int›) (hf.valid hx) (by rw [e]; exact ht) (by rw [e]; exact hf.valid hv)
      (by rw [e, hpp]; exact hn)
    rwa [e] at this
  | @next k x p hx ht hv hpt hn hp' ih =>
    have e := hf.same _ hx.2 (fun h => (hp _ hx h).1 ht)
    have hcar := (portLoop_ok hp').2.2
    have e2 := hf.same _ hv.2 (fun h => hn (by rw [(hp _ hv h).2 hpt]; exact hcar))
    refine .next (hf.valid hx) (by rw [e]; exact ht) (by rw [e]; exact hf.valid hv) (by rw [e, e2]; exact hpt)
      (by rw [e, e2]; exact hn) ?_
    rw [e]
    exact ih hp hpp

theorem stringInput_text (h : StringInput s w k m p bs) :
    stringPort s w k = ok p ∧ s.cdr p = ok (s.cell p).cdr ∧ s.car (s.cell p).cdr = ok (bs.length : Int) ∧
      s.cdr (s.cell p).cdr = ok (s.cell (s.cell p).cdr).cdr ∧ s.bytes (s.cell (s.cell p).cdr).cdr = ok (bs ++ [0]) := by
  obtain ⟨h1, h2, -⟩ := portLoop_ok h.port
  have ht := h.text
  refine ⟨h1, St.cdr_ok h2, ?_, St.cdr_ok ht.valid, ?_⟩
  · rw [St.car_ok ht.valid, ht.length]
  · rw [St.bytes_ok ht.bvalid, ht.bytes]

/-- The port gets another text. -/
theorem stringInput_set {cs : List Byte} (h : StringInput s w k m p bs) (hx : Ext s s') {x : Int} (ht : IsString s' x cs)
    (ha : ∀ b ∈ cs, b.toNat < 128) (hl : cs.length ≤ m) : ∃ s'', s'.setCdr p x = ok s'' ∧ StringInput s'' w k m p cs ∧
      Frame (· = p) s s'' ∧ s''.free = s'.free := by
  have hv := (portLoop_ok h.port).2.1
  have hv' := hx.valid hv
  have e := hx.same p hv.2 id
  have hf : Frame (· = p) s' (s'.upd p { s'.cell p with cdr := x }) := upd_frame ..
  have hf2 : Frame (· = p) s (s'.upd p { s'.cell p with cdr := x }) := hx.frame.trans hf
  have htag' : (s'.cell p).tag = .port := by rw [e]; exact h.tag
  have n1 : x ≠ p := fun e' => by have := ht.tag; rw [e', htag'] at this; cases this
  have n2 : (s'.cell x).cdr ≠ p := fun e' => by have := ht.btag; rw [e', htag'] at this; cases this
  refine ⟨_, by simp [St.setCdr, hv'], ⟨h.stdin, ?_, ?_, ?_, ha, hl, ?_⟩, hf2, rfl⟩
  · rw [hf2.ports]
    refine PortIn.frame h.port hf2 (fun a _ ha => ?_) (by simp [e])
    have ha : a = p := ha
    subst ha; rw [h.tag]; exact ⟨by simp, fun _ => rfl⟩
  · simp [htag']
  · simp only [St.upd_cell_same]
    exact ⟨ht.toHasText.frame hf n1 n2, by rw [St.upd_cell_ne _ n1]; exact ht.tag⟩
  · rw [hf2.maxString]; exact h.length.2

/-- What a change of other cells must leave alone. -/
theorem Spec.StringInput.frame (h : StringInput s w k m p bs) (hf : Frame P s s')
    (hp : ∀ a, s.Valid a → P a → (s.cell a).tag = .ref) : StringInput s' w k m p bs := by
  have hv := (portLoop_ok h.port).2.1
  have e := hf.same p hv.2 (fun h' => by have := hp _ hv h'; rw [h.tag] at this; cases this)
  refine ⟨h.stdin, ?_, by rw [e]; exact h.tag, ?_, h.ascii, h.length.1, by rw [hf.maxString]; exact h.length.2⟩
  · rw [hf.ports]
    exact PortIn.frame h.port hf (fun a hv ha => by rw [hp a hv ha]; exact ⟨by simp, fun h => by cases h⟩) (by rw [e])
  · rw [e]
    have ht := h.text
    have n1 : ¬ P (s.cell p).cdr := fun h' => by have := hp _ ht.valid h'; rw [ht.tag] at this; cases this
    exact ⟨ht.toHasText.frame hf n1 (fun h' => by have := hp _ ht.bvalid h'; rw [ht.btag] at this; cases this),
      by rw [hf.same _ ht.valid.2 n1]; exact ht.tag⟩

/-! ### Both -/

theorem Spec.Input.frame (h : Input m k p s w bs clear) (hf : Frame P s s') (hp : ∀ a, s.Valid a → P a → (s.cell a).tag = .ref) :
    Input m k p s' w bs clear := by
  cases h with
  | file h2 h3 => exact .file h2 h3
  | string h => exact .string (h.frame hf hp)

theorem Spec.Input.ext (h : Input m k p s w bs clear) (hf : Ext s s') : Input m k p s' w bs clear :=
  h.frame hf (fun _ _ h => h.elim)

theorem Spec.Input.weaken (h : Input m k p s w bs clear) : Input m k p s w bs false := by
  cases h with
  | file h2 h3 =>
    refine .file h2 ⟨h3.fd, ?_⟩
    rcases h3.text with h | ⟨-, h⟩
    · exact .inl h
    · exact .inr ⟨rfl, h⟩
  | string h => exact .string h

theorem Spec.Input.portTag (h : Input m k p s w bs clear) (hv : s.Valid p) : (s.cell p).tag = .port := by
  cases h with
  | file h2 h3 => have := hv.1; omega
  | string h => exact h.tag

/-- What is there can be pushed back. -/
theorem Spec.Input.fits (h : Input m k p s w (b :: bs) clear) (hp : p ≠ 0) : b.toNat < 128 ∧ bs.length < m := by
  cases h with
  | file h2 h3 => exact absurd h2 hp
  | string h => exact ⟨h.ascii b (List.mem_cons_self ..), by have := h.length.1; simp at this; omega⟩

theorem Spec.Input.tail_clear (h : Input m k p s w bs true) : Input m k p s w bs clear := by
  cases clear with
  | true => exact h
  | false => exact h.weaken

/-- Reading a character. -/
theorem readchar_ok (h : Input m k p s w (b :: bs) clear) (hr : Room s (stringCells m)) : ∃ s' w', readchar s w k = ok (code b, s', w') ∧
    Input m k p s' w' bs true ∧ Frame (fun a => a = p ∧ 0 < a) s s' ∧ s'.free ≤ s.free + stringCells m := by
  cases h with
  | file hp h =>
    obtain ⟨w', h1, h2, -⟩ := fdgetc_ok h
    refine ⟨s, w', ?_, .file hp h2, Frame.refl _ _, by unfold stringCells; omega⟩
    simp only [readchar, if_pos h.fd.1, h1, ok_bind]
  | string h =>
    obtain ⟨g1, g2, g3, g4, g5⟩ := stringInput_text h
    have hl := h.length
    simp only [List.length_cons] at hl
    have hcells : stringCells bs.length ≤ stringCells m := by unfold stringCells; omega
    have htake : ((b :: bs ++ [0]).take ((b :: bs).length : Int).toNat).drop 1 = bs := by
      rw [show ((b :: bs).length : Int).toNat = (b :: bs).length by omega, List.take_left']
      · rfl
      · rfl
    obtain ⟨s1, m1, m2, m3, m4⟩ := makeString_ok (s := s) (bs := bs) (by omega) (hr.mono hcells)
    obtain ⟨s2, k1, k2, k3, k4⟩ := stringInput_set h m3 m2 (fun b hb => h.ascii b (List.mem_cons_of_mem _ hb)) (by omega)
    refine ⟨s2, w, ?_, .string k2, k3.mono (fun a _ ha => ⟨ha, by have := (portLoop_ok h.port).2.1.1; omega⟩), by omega⟩
    have hst := h.stdin
    simp only [readchar, if_neg (show ¬ 0 ≤ w.stdin by omega), g1, g2, g3, g4, g5, ok_bind]
    rw [if_neg (by simp; omega), ubUnless_true (by simp; omega)]
    simp only [ok_bind]
    rw [htake]
    simp only [m1, ok_bind, k1, ok.injEq, Prod.mk.injEq, and_true, List.cons_append, List.headD_cons]
    exact sc_of_ascii (h.ascii b (List.mem_cons_self ..))

theorem readchar_eof (h : Input m k p s w [] clear) : readchar s w k = ok (eof, s, w) := by
  cases h with
  | file hp h => simp only [readchar, if_pos h.fd.1, fdgetc_eof h, ok_bind]
  | string h =>
    obtain ⟨g1, g2, g3, g4, g5⟩ := stringInput_text h
    have hst := h.stdin
    simp only [readchar, if_neg (show ¬ 0 ≤ w.stdin by omega), g1, g2, g3, ok_bind, List.length_nil, Int.natCast_zero,
      if_pos]

/-- Pushing a character back.  A string port only takes ASCII characters, and no more than it had room for. -/
theorem unreadchar_ok (h : Input m k p s w bs true) (hr : Room s (stringCells m))
    (hs : p ≠ 0 → b.toNat < 128 ∧ bs.length < m) :
    ∃ s' w', unreadchar s w k (code b) = ok (code b, s', w') ∧
    Input m k p s' w' (b :: bs) false ∧ Frame (fun a => a = p ∧ 0 < a) s s' ∧ s'.free ≤ s.free + stringCells m := by
  cases h with
  | file hp h =>
    obtain ⟨w', h1, h2, -⟩ := fdungetc_ok h b
    refine ⟨s, w', ?_, .file hp h2, Frame.refl _ _, by unfold stringCells; omega⟩
    simp only [unreadchar, if_pos h.fd.1, h1, ok_bind]
  | string h =>
    obtain ⟨g1, g2, g3, g4, g5⟩ := stringInput_text h
    obtain ⟨hb, hlt⟩ := hs (by have := (portLoop_ok h.port).2.1.1; omega)
    have hl := h.length
    have hcells : stringCells (b :: bs).length ≤ stringCells m := by
      unfold stringCells; simp only [List.length_cons]; omega
    have htake : (bs ++ [0]).take (bs.length : Int).toNat = bs := by
      rw [show (bs.length : Int).toNat = bs.length by omega, List.take_left']
      rfl
    obtain ⟨s1, m1, m2, m3, m4⟩ := makeString_ok (s := s) (bs := b :: bs) (by simp; omega) (hr.mono hcells)
    obtain ⟨s2, k1, k2, k3, k4⟩ := stringInput_set h m3 m2 (fun c hc => by
      rcases List.mem_cons.1 hc with rfl | hc
      · exact hb
      · exact h.ascii c hc) (by simp; omega)
    refine ⟨s2, w, ?_, .string k2, k3.mono (fun a _ ha => ⟨ha, by have := (portLoop_ok h.port).2.1.1; omega⟩), by omega⟩
    have hst := h.stdin
    have hc := code_nonneg b
    simp only [unreadchar, if_neg (show ¬ 0 ≤ w.stdin by omega), if_neg (show ¬ code b = eof by unfold eof; omega), g1, g2,
      g3, g4, g5, ok_bind]
    rw [ubUnless_true (by simp; omega)]
    simp only [ok_bind]
    rw [htake, toByte_code]
    simp only [m1, ok_bind, k1]

theorem unreadchar_eof : unreadchar s w k eof = ok (eof, s, w) := by
  unfold unreadchar
  split
  · simp [fdungetc]
  · simp

/-- Looking at the next character. -/
theorem peekchar_ok (h : Input m k p s w (b :: bs) clear) : ∃ w', peekchar s w k = ok (code b, s, w') ∧
    Input m k p s w' (b :: bs) false := by
  cases h with
  | file hp h =>
    obtain ⟨w1, h1, h2, h3⟩ := fdgetc_ok h
    obtain ⟨w2, k1, k2, k3⟩ := fdungetc_ok h2 b
    refine ⟨w2, ?_, .file hp k2⟩
    have hfd := h.fd.1
    simp only [peekchar, readchar, unreadchar, if_pos hfd, h1, ok_bind]
    rw [if_pos (by rw [h3]; exact hfd), k1]; rfl
  | string h =>
    obtain ⟨g1, g2, g3, g4, g5⟩ := stringInput_text h
    have hst := h.stdin
    refine ⟨w, ?_, .string h⟩
    simp only [peekchar, if_neg (show ¬ 0 ≤ w.stdin by omega), g1, g2, g3, g4, g5, ok_bind]
    rw [if_neg (by simp; omega)]
    simp only [List.cons_append, List.getElem?_cons_zero, ofRead_some, ok_bind, ok.injEq, Prod.mk.injEq, and_true]
    exact sc_of_ascii (h.ascii b (List.mem_cons_self ..))

theorem peekchar_eof (h : Input m k p s w [] clear) : peekchar s w k = ok (eof, s, w) := by
  cases h with
  | file hp h =>
    simp only [peekchar, readchar, unreadchar, if_pos h.fd.1, fdgetc_eof h, ok_bind, fdungetc, if_true]
  | string h =>
    obtain ⟨g1, g2, g3, g4, g5⟩ := stringInput_text h
    have hst := h.stdin
    simp only [peekchar, if_neg (show ¬ 0 ≤ w.stdin by omega), g1, g2, g3, ok_bind, List.length_nil, Int.natCast_zero,
      if_pos]

end Mes
