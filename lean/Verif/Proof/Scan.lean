import Verif.Proof.CNum
import Verif.Proof.Bytes
import Verif.Model.CScan
import Verif.Spec.Scan
/- `vsscanf` on a text that the template matches. -/
namespace Mes.C
open Res Spec

/-- What this `vsscanf` can do. -/
def handled : ScanLimits where
  skip ws := ws = []
  white ws := ws.length = 1
  value _ n := n + 48 ≤ INT_MAX

theorem isspace_of_white {c : Byte} (h : White c) : isspace (sc c) = true := by
  unfold White at h
  unfold isspace sc
  rw [if_pos (by omega)]
  simp; omega

theorem At.left {m a b : List UInt8} {i : Nat} (h : At m i (a ++ b)) : At m i a := fun k hk => by
  rw [h k (by rw [List.length_append]; omega), List.getElem?_append_left hk]

theorem At.right {m a b : List UInt8} {i : Nat} (h : At m i (a ++ b)) : At m (i + a.length) b := fun k hk => by
  rw [Nat.add_assoc, h (a.length + k) (by rw [List.length_append]; omega), List.getElem?_append_right (by omega), Nat.add_sub_cancel_left]

theorem At.head {m l : List UInt8} {b : UInt8} {i : Nat} (h : At m i (b :: l)) : m[i]? = some b := h 0 (by simp)

theorem At.patch {m l v : List UInt8} {i a : Nat} (h : At m i l) (hv : a + v.length ≤ m.length) (hd : Disjoint a v.length i l.length) :
    At (patch m a v) i l := fun k hk => by
  rw [getElem?_patch _ _ _ _ hv, if_neg (by unfold Disjoint at hd; omega)]
  exact h k hk

theorem Places.mono {size p pn t tn p' pn' t' tn' : Nat} (hp : p ≤ p' ∧ p' + pn' ≤ p + pn) (ht : t ≤ t' ∧ t' + tn' ≤ t + tn) :
    ∀ {as : List Nat} {vs : List (List UInt8)}, Places size p pn t tn as vs → Places size p' pn' t' tn' as vs
  | _, [], _ => by cases ‹List Nat› <;> trivial
  | [], _ :: _, h => h.elim
  | a :: as, v :: vs, ⟨h1, h2, h3, h4⟩ => by
    refine ⟨h1, ?_, ?_, Places.mono hp ht h4⟩ <;> (unfold Disjoint at *; omega)

theorem set_set_patch (m : List UInt8) (a : Nat) (b : UInt8) (l : List UInt8) (h : a + (l.length + 1) ≤ m.length) :
    patch (m.set a b) (a + 1) l = patch m a (b :: l) := by
  apply List.ext_getElem?
  intro i
  rw [getElem?_patch _ _ _ _ (by rw [List.length_set]; omega), getElem?_patch _ _ _ _ (by simpa using h), getElem?_set' _ _ _ _ (by omega)]
  by_cases h1 : i = a
  · subst h1
    rw [if_neg (by omega), if_pos rfl, if_pos ⟨by omega, by simp⟩, Nat.sub_self]
    rfl
  · by_cases h2 : a + 1 ≤ i ∧ i < a + 1 + l.length
    · rw [if_pos h2, if_pos ⟨by omega, by simp only [List.length_cons]; omega⟩, show i - a = (i - (a + 1)) + 1 by omega, List.getElem?_cons_succ]
    · rw [if_neg h2, if_neg h1, if_neg (by simp only [List.length_cons]; omega)]

theorem patch_one (m : List UInt8) (a : Nat) (b : UInt8) (h : a < m.length) : m.set a b = patch m a [b] := by
  rw [← set_set_patch m a b [] (by show a + 1 ≤ _; omega), patch_nil]

theorem storeInt_ok {m : Mem} {a : Nat} (v : Int) (h : a + 4 ≤ m.length) : storeInt m a v = ok (patch m a (intBytes v)) := by
  unfold storeInt
  rw [wr_ok _ (by omega), ok_bind, wr_ok _ (by rw [List.length_set]; omega), ok_bind, wr_ok _ (by simp only [List.length_set]; omega), ok_bind,
    wr_ok _ (by simp only [List.length_set]; omega)]
  unfold intBytes
  rw [← set_set_patch _ _ _ _ (by simpa using h), ← set_set_patch _ _ _ _ (by simp only [List.length_set, List.length_cons, List.length_nil]; omega),
    ← set_set_patch _ _ _ _ (by simp only [List.length_set, List.length_cons, List.length_nil]; omega), ← patch_one _ _ _ (by simp only [List.length_set]; omega)]
  rfl

theorem int32_fits {x : Int} (h : 0 ≤ x) (h' : x ≤ INT_MAX) : int32 x = ok x := by
  unfold int32
  rw [if_pos ⟨by omega, h'⟩]

theorem digit_small {c : Byte} (h : IsDigit 10 c) : sc c ≤ 57 := by
  obtain ⟨v, hv, hlt⟩ := h
  have := c.toNat_lt
  unfold digitVal at hv
  unfold sc
  split at hv
  · split <;> omega
  · split at hv
    · cases hv; omega
    · cases hv

theorem letter1 {m : Mem} {t : Nat} {c : Byte} (h : m.rd t = ok c) (hc : c ≠ 108) : scanLetter m t = ok (c, t) := by
  unfold scanLetter
  rw [h, ok_bind, if_neg hc]

theorem scan_ok (flt : Mem → Nat → Nat → Res (Mem × Nat)) {ps : List ScanPiece} {s : List UInt8} {vs : List (List UInt8)} (h : Scans handled ps s vs) :
    ∀ (fuel : Nat) (m : Mem) (p t : Nat) (args : List Nat) (count : Int), (∀ b ∈ s, b ≠ 0) → (∀ b ∈ scanText ps, b ≠ 0) → At m p (s ++ [0]) → At m t (scanText ps ++ [0]) →
      Places m.length p (s.length + 1) t ((scanText ps).length + 1) args vs → 0 ≤ count → count + vs.length ≤ INT_MAX → (scanText ps).length < fuel →
      scanLoop flt fuel m p t args count = ok (count + vs.length, stores m args vs) := by
  have step : ∀ {x : UInt8} {xs : List UInt8} {m : Mem} {i : Nat}, At m i (x :: xs ++ [0]) → m.rd i = ok x ∧ At m (i + 1) (xs ++ [0]) := fun {x xs m i} h =>
    ⟨rd_ok (At.head h), At.right (a := [x]) h⟩
  induction h with
  | nil =>
    intro fuel m p t args count _ _ _ ht _ _ _ hf
    cases fuel with
    | zero => omega
    | succ fuel =>
      unfold scanLoop
      rw [show m.rd t = ok 0 from rd_ok (At.head ht), ok_bind, if_pos rfl]
      cases args <;> simp [stores]
  | byte hb hw _ ih =>
    rename_i b ps s vs _
    intro fuel m p t args count hs0 ht0 hp ht hpl hc hm hf
    cases fuel with
    | zero => omega
    | succ fuel =>
      obtain ⟨p1, p2⟩ := step hp
      obtain ⟨t1, t2⟩ := step (x := b) (xs := scanText ps) ht
      have b0 := hs0 b (List.mem_cons_self ..)
      have hl : (scanText (.byte b :: ps)).length = (scanText ps).length + 1 := by simp [scanText, ScanPiece.text]
      unfold scanLoop
      rw [t1, ok_bind, if_neg b0, p1, ok_bind, if_neg b0, if_pos hb]
      exact ih fuel m _ _ args count (fun c hc => hs0 c (List.mem_cons_of_mem _ hc)) (fun c hc => ht0 c (by simp [scanText, hc])) p2 t2
        (Places.mono ⟨by omega, by simp only [List.length_cons]; omega⟩ ⟨by omega, by omega⟩ hpl) hc hm (by omega)
  | white hb hw hs hl _ ih =>
    rename_i b ws ps s vs _
    intro fuel m p t args count hs0 ht0 hp ht hpl hc hm hf
    cases fuel with
    | zero => omega
    | succ fuel =>
      obtain ⟨w, rfl⟩ := List.length_eq_one_iff.1 hl
      obtain ⟨p1, p2⟩ := step (x := w) (xs := s) hp
      obtain ⟨t1, t2⟩ := step (x := b) (xs := scanText ps) ht
      have w0 := hs0 w (List.mem_cons_self ..)
      have b0 := ht0 b (by simp [scanText, ScanPiece.text])
      have hl : (scanText (.white b :: ps)).length = (scanText ps).length + 1 := by simp [scanText, ScanPiece.text]
      have h37 : b ≠ 37 := fun e => by subst e; exact absurd hb (by decide)
      unfold scanLoop
      rw [t1, ok_bind, if_neg b0, p1, ok_bind, if_neg w0, if_pos h37]
      exact ih fuel m _ _ args count (fun c hc => hs0 c (List.mem_append_right _ hc)) (fun c hc => ht0 c (by simp [scanText, hc])) p2 t2
        (Places.mono ⟨by omega, by simp only [List.length_append, List.length_cons, List.length_nil]; omega⟩ ⟨by omega, by omega⟩ hpl) hc hm (by omega)
  | percent hw hl _ ih =>
    rename_i ws ps s vs _
    intro fuel m p t args count hs0 ht0 hp ht hpl hc hm hf
    cases fuel with
    | zero => omega
    | succ fuel =>
      cases hl
      obtain ⟨p1, p2⟩ := step (x := 37) (xs := s) hp
      obtain ⟨t1, t2⟩ := step (x := 37) (xs := 37 :: scanText ps) ht
      obtain ⟨t3, t4⟩ := step t2
      have hl : (scanText (.percent :: ps)).length = (scanText ps).length + 2 := by simp [scanText, ScanPiece.text]
      unfold scanLoop
      rw [t1, ok_bind, if_neg (by decide), p1, ok_bind, if_neg (by decide), if_neg (by decide), letter1 t3 (by decide), ok_bind]
      show (if (37 : UInt8) = 37 then _ else _) = _
      rw [if_pos rfl]
      exact ih fuel m _ _ args count (fun c hc => hs0 c (List.mem_cons_of_mem _ hc)) (fun c hc => ht0 c (by simp [scanText, hc])) p2 t4
        (Places.mono ⟨by omega, by simp only [List.nil_append, List.length_cons]; omega⟩ ⟨by omega, by omega⟩ hpl) hc hm (by omega)
  | char _ ih =>
    rename_i b ps s vs _
    intro fuel m p t args count hs0 ht0 hp ht hpl hc hm hf
    cases fuel with
    | zero => omega
    | succ fuel =>
      cases args with
      | nil => exact hpl.elim
      | cons a args =>
        obtain ⟨g1, g2, g3, g4⟩ := hpl
        obtain ⟨p1, p2⟩ := step (x := b) (xs := s) hp
        obtain ⟨t1, t2⟩ := step (x := 37) (xs := 99 :: scanText ps) ht
        obtain ⟨t3, t4⟩ := step t2
        have b0 := hs0 b (List.mem_cons_self ..)
        have hl : (scanText (.char :: ps)).length = (scanText ps).length + 2 := by simp [scanText, ScanPiece.text]
        have ha : a < m.length := by have : a + 1 ≤ m.length := g1; omega
        rw [List.length_cons] at hm
        unfold scanLoop
        rw [t1, ok_bind, if_neg (by decide), p1, ok_bind, if_neg b0, if_neg (by decide), letter1 t3 (by decide), ok_bind]
        show (if (99 : UInt8) = 37 then _ else if (99 : UInt8) = 99 then _ else _) = _
        rw [if_neg (by decide), if_pos rfl]
        show (do let b ← ok b; let m ← m.wr a b; let count ← int32 (count + 1); scanLoop flt fuel m (p + 1) (t + 1 + 1) args count) = _
        rw [ok_bind, wr_ok _ ha, ok_bind, int32_fits (by omega) (by omega), ok_bind, patch_one _ _ _ ha]
        have := ih fuel (patch m a [b]) (p + 1) (t + 1 + 1) args (count + 1) (fun c hc => hs0 c (List.mem_cons_of_mem _ hc)) (fun c hc => ht0 c (by simp [scanText, hc]))
          (At.patch p2 g1 (by unfold Disjoint at *; simp only [List.length_append, List.length_cons, List.length_nil] at *; omega))
          (At.patch t4 g1 (by unfold Disjoint at *; simp only [List.length_append, List.length_cons, List.length_nil] at *; omega))
          (by rw [length_patch _ _ _ g1]; exact Places.mono ⟨by omega, by simp only [List.length_cons]; omega⟩ ⟨by omega, by omega⟩ g4) (by omega) (by omega) (by omega)
        rw [this]
        congr 2
        rw [List.length_cons]; omega
  | int hcl hw hsign hne hds hs hval _ ih =>
    rename_i long letter ws sign ds ps s vs _
    intro fuel m p t args count hs0 ht0 hp ht hpl hc hm hf
    cases fuel with
    | zero => omega
    | succ fuel =>
      cases args with
      | nil => exact hpl.elim
      | cons a args =>
        obtain ⟨g1, g2, g3, g4⟩ := hpl
        have l0 : letter ≠ 108 ∧ letter ≠ 37 ∧ letter ≠ 99 ∧ (letter = 100 ∨ letter = 105 ∨ letter = 117) := by rcases hcl with rfl | rfl <;> decide
        -- the template
        have ht' : ∃ t', m.rd t = ok 37 ∧ At m t' (scanText ps ++ [0]) ∧ t < t' ∧ t' + (scanText ps).length = t + (scanText (.int long letter :: ps)).length ∧
            scanLetter m (t + 1) = ok (letter, t' - 1) ∧ 1 ≤ t' := by
          cases long with
          | false =>
            obtain ⟨t1, t2⟩ := step (x := 37) (xs := letter :: scanText ps) ht
            obtain ⟨t3, t4⟩ := step t2
            refine ⟨t + 1 + 1, t1, t4, by omega, by simp [scanText, ScanPiece.text]; omega, ?_, by omega⟩
            exact letter1 t3 l0.1
          | true =>
            obtain ⟨t1, t2⟩ := step (x := 37) (xs := 108 :: letter :: scanText ps) ht
            obtain ⟨t3, t4⟩ := step t2
            obtain ⟨t5, t6⟩ := step t4
            refine ⟨t + 1 + 1 + 1, t1, t6, by omega, by simp [scanText, ScanPiece.text]; omega, ?_, by omega⟩
            unfold scanLetter
            rw [t3, ok_bind, if_pos rfl, t5, ok_bind]; rfl
        obtain ⟨t', t1, t2, t3, t4, t5, t6⟩ := ht'
        -- the text
        have hall : At m p (ws ++ (sign ++ (ds ++ (s ++ [0])))) := by simpa only [List.append_assoc] using hp
        obtain ⟨b, hb, hbd⟩ : ∃ b, (s ++ [0]).head? = some b ∧ ¬ IsDigit 10 b := by
          cases s with
          | nil => exact ⟨0, rfl, by decide⟩
          | cons c s => exact ⟨c, rfl, hs c rfl⟩
        obtain ⟨rest, hr⟩ : ∃ rest, s ++ [0] = b :: rest := by
          cases hsr : s ++ [0] with
          | nil => rw [hsr] at hb; cases hb
          | cons c r => rw [hsr] at hb; cases hb; exact ⟨r, rfl⟩
        have hat : At m p (ws ++ sign ++ ds ++ [b]) := by
          refine At.left (b := rest) ?_
          rw [List.append_assoc _ [b], show [b] ++ rest = s ++ [0] from hr.symm]
          simpa only [List.append_assoc] using hall
        have habt : abtol m p 10 = ok (signedVal sign (numVal 10 ds), p + ws.length + sign.length + ds.length) :=
          abtol_ok (base := 10) (by omega) 10 (.inl rfl) p ws ds sign b hsign (fun c hc => isspace_of_white (hw c hc)) hne hds
            (fun q c r he hgt => by have := digit_small (hds c (by rw [he]; simp)); omega) (.inr ⟨fun c hc => digit_small (hds c hc), hval⟩) hat hbd
        have p2 : At m (p + ws.length + sign.length + ds.length) (s ++ [0]) := At.right (At.right (At.right hall))
        obtain ⟨x, xs, hx⟩ : ∃ x xs, ws ++ (sign ++ (ds ++ s)) = x :: xs := by
          cases hsr : ws ++ (sign ++ (ds ++ s)) with
          | nil => simp only [List.append_eq_nil_iff] at hsr; exact absurd hsr.2.2.1 hne
          | cons x xs => exact ⟨x, xs, rfl⟩
        have p1 : m.rd p = ok x := (step (xs := xs) (by rw [← hx]; exact hp)).1
        have x0 : x ≠ 0 := hs0 x (by rw [hx]; exact List.mem_cons_self ..)
        have hlen : (ws ++ (sign ++ (ds ++ s))).length = ws.length + sign.length + ds.length + s.length := by simp only [List.length_append]; omega
        have i4 : (intBytes (signedVal sign (numVal 10 ds))).length = 4 := rfl
        rw [hlen] at g2 g4
        rw [List.length_cons] at hm
        unfold scanLoop
        rw [t1, ok_bind, if_neg (by decide), p1, ok_bind, if_neg x0, if_neg (by decide), t5, ok_bind]
        show (if letter = 37 then _ else if letter = 99 then _ else if letter = 100 ∨ letter = 105 ∨ letter = 117 then _ else _) = _
        rw [if_neg l0.2.1, if_neg l0.2.2.1, if_pos l0.2.2.2]
        show (do let (v, p) ← abtol m p 10; let m ← storeInt m a v; let count ← int32 (count + 1); scanLoop flt fuel m p (t' - 1 + 1) args count) = _
        rw [habt, ok_bind]
        show (do let m ← storeInt m a (signedVal sign (numVal 10 ds)); let count ← int32 (count + 1)
                 scanLoop flt fuel m (p + ws.length + sign.length + ds.length) (t' - 1 + 1) args count) = _
        rw [storeInt_ok _ g1, ok_bind, int32_fits (by omega) (by omega), ok_bind, Nat.sub_add_cancel t6]
        have := ih fuel (patch m a (intBytes (signedVal sign (numVal 10 ds)))) (p + ws.length + sign.length + ds.length) t' args (count + 1)
          (fun c hc => hs0 c (by simp [hc])) (fun c hc => ht0 c (by simp [scanText, hc]))
          (At.patch p2 g1 (by unfold Disjoint at *; simp only [List.length_append, List.length_cons, List.length_nil] at *; omega))
          (At.patch t2 g1 (by unfold Disjoint at *; simp only [List.length_append, List.length_cons, List.length_nil] at *; omega))
          (by rw [length_patch _ _ _ g1]; exact Places.mono ⟨by omega, by omega⟩ ⟨by omega, by omega⟩ g4) (by omega) (by omega) (by omega)
        rw [this]
        congr 2
        rw [List.length_cons]; omega

/-! ## What `printf` writes -/

theorem format_text : ∀ ps : List ScanPiece, ScanApart ps → formatText (ps.map ScanPiece.format) = scanText ps
  | [], _ => rfl
  | p :: ps, h => by
    have e : p.format.text = p.text := by
      cases p with
      | int long letter => cases long <;> rfl
      | _ => rfl
    show p.format.text ++ formatText (ps.map ScanPiece.format) = p.text ++ scanText ps
    rw [e, format_text ps h.2]

theorem shows_percent {R : Restriction} {w : Nat} {S : Nat → List UInt8 → Prop} {args args' : List Int} {out : List UInt8}
    (H : Shows R w S ⟨false, false, .absent, .absent, 0, 37⟩ args out args') : out = [37] ∧ args' = args := by
  obtain ⟨wd, a1, pr, a2, sg, raw, tx, h1, h2, h3, -, h5⟩ := H.shows
  cases h1; cases h2
  cases h3 with
  | percent h => exact ⟨h5, rfl⟩
  | char h => exact absurd h (by decide)
  | signed h => exact absurd h (by decide)
  | unsigned h => exact absurd (show (none : Option Nat) = some _ from h) (fun e => nomatch e)
  | string h => exact absurd h (by decide)

theorem shows_char {R : Restriction} {w : Nat} {S : Nat → List UInt8 → Prop} {args args' : List Int} {out : List UInt8}
    (H : Shows R w S ⟨false, false, .absent, .absent, 0, 99⟩ args out args') : ∃ x, args = x :: args' ∧ out = [UInt8.ofNat (x % 256).toNat] := by
  obtain ⟨wd, a1, pr, a2, sg, raw, tx, h1, h2, h3, -, h5⟩ := H.shows
  cases h1; cases h2
  cases h3 with
  | percent h => exact absurd (congrArg Directive.letter h) (by decide)
  | char h => exact ⟨_, rfl, h5⟩
  | signed h => exact absurd h (by decide)
  | unsigned h => exact absurd (show (none : Option Nat) = some _ from h) (fun e => nomatch e)
  | string h => exact absurd h (by decide)

theorem shows_int {R : Restriction} {w : Nat} {S : Nat → List UInt8 → Prop} {args args' : List Int} {out : List UInt8}
    (H : Shows R w S ⟨false, false, .absent, .absent, 0, 100⟩ args out args') :
    ∃ x ds, args = x :: args' ∧ out = (if x < 0 then [45] else []) ++ ds ∧ IsNumeral 10 x.natAbs ds := by
  obtain ⟨wd, a1, pr, a2, sg, raw, tx, h1, h2, h3, -, h5⟩ := H.shows
  cases h1; cases h2
  cases h3 with
  | percent h => exact absurd (congrArg Directive.letter h) (by decide)
  | char h => exact absurd h (by decide)
  | signed h hx hn => exact ⟨_, _, rfl, h5.trans (by simp [field, minDigits, usePrecision]), hn⟩
  | unsigned h => exact absurd (show (none : Option Nat) = some _ from h) (fun e => nomatch e)
  | string h => exact absurd h (by decide)

/-- The first character of what follows. -/
theorem renders_head {R : Restriction} {w : Nat} {S : Nat → List UInt8 → Prop} {p : ScanPiece} {ps : List ScanPiece} {args : List Int} {text : List UInt8}
    (h : Renders R w S ((p :: ps).map ScanPiece.format) args text) {c : UInt8} (hc : text.head? = some c) :
    (∀ b, p = .byte b → c = b) ∧ (∀ b, p = .white b → c = b) ∧ (p = .percent → c = 37) := by
  refine ⟨fun b e => ?_, fun b e => ?_, fun e => ?_⟩ <;> subst e <;> cases h
  · cases hc; rfl
  · cases hc; rfl
  · rename_i _ h
    rw [(shows_percent h).1] at hc
    cases hc; rfl

theorem int_head {R : Restriction} {w : Nat} {S : Nat → List UInt8 → Prop} {ps : List ScanPiece} {args : List Int} {text : List UInt8}
    (h : Renders R w S ((.int false 100 :: ps).map ScanPiece.format) args text) {c : UInt8} (hc : text.head? = some c) : ¬ White c := by
  cases h
  rename_i _ h
  obtain ⟨x, ds, -, e, hn⟩ := shows_int h
  rw [e] at hc
  split at hc
  · cases hc; decide
  · obtain ⟨d, ds', rfl⟩ := List.exists_cons_of_ne_nil hn.nonempty
    cases hc
    obtain ⟨v, hv, hlt⟩ := hn.digits c (List.mem_cons_self ..)
    intro hw
    unfold White at hw
    unfold digitVal at hv
    rw [if_neg (by omega), if_neg (by omega)] at hv
    cases hv

theorem renders_scans {R : Restriction} {w : Nat} {S : Nat → List UInt8 → Prop} : ∀ (ps : List ScanPiece) {args : List Int} {text : List UInt8},
    ScanApart ps → Renders R w S (ps.map ScanPiece.format) args text → (∀ x ∈ args, x.natAbs + 48 ≤ INT_MAX) → Scans handled ps text (printed ps args)
  | [], args, text, _, h, _ => by
    cases h
    cases args <;> exact .nil
  | .byte b :: ps, args, text, ha, h, hx => by
    cases h
    rename_i h0 h37 h
    exact .byte h37 ha.1 (renders_scans ps ha.2 h hx)
  | .white b :: ps, args, text, ha, h, hx => by
    cases h
    rename_i text h0 h37 h
    have hb : White b := by
      have := ha.1
      cases ps with
      | nil => exact this
      | cons q qs => cases q <;> first | exact this | exact this.2
    refine .white (ws := [b]) hb (fun c hc => by rw [List.mem_singleton.1 hc]; exact hb) (fun c hc => ?_) rfl (renders_scans ps ha.2 h hx)
    cases ps with
    | nil => cases h; cases hc
    | cons q qs =>
      cases q with
      | byte b' => rw [(renders_head h hc).1 _ rfl]; exact ha.2.1
      | white b' => exact ha.1.1.elim
      | percent => rw [(renders_head h hc).2.2 rfl]; decide
      | char => exact ha.1.1.elim
      | int long letter =>
        have : long = false ∧ letter = 100 := by
          have := ha.2.1
          cases qs with
          | nil => exact this
          | cons r rs => cases r <;> first | exact this | exact ⟨this.1, this.2.1⟩ | exact this.elim
        obtain ⟨rfl, rfl⟩ := this
        exact int_head h hc
  | .percent :: ps, args, text, ha, h, hx => by
    cases h
    rename_i hr h
    obtain ⟨rfl, rfl⟩ := shows_percent h
    exact .percent (ws := []) (fun c hc => (nomatch hc)) rfl (renders_scans ps ha.2 hr hx)
  | .char :: ps, args, text, ha, h, hx => by
    cases h
    rename_i hr h
    obtain ⟨x, rfl, rfl⟩ := shows_char h
    exact .char (renders_scans ps ha.2 hr fun y hy => hx y (List.mem_cons_of_mem _ hy))
  | .int long letter :: ps, args, text, ha, h, hx => by
    have hl : long = false ∧ letter = 100 := by
      have := ha.1
      cases ps with
      | nil => exact this
      | cons r rs => cases r <;> first | exact this | exact ⟨this.1, this.2.1⟩ | exact this.elim
    obtain ⟨rfl, rfl⟩ := hl
    cases h
    rename_i hr h
    obtain ⟨x, ds, rfl, rfl, hn⟩ := shows_int h
    have hv : signedVal (if x < 0 then [45] else []) (numVal 10 ds) = x := by
      rw [hn.value]
      unfold signedVal
      by_cases h0 : x < 0
      · rw [if_pos h0, if_pos rfl]; omega
      · rw [if_neg h0, if_neg (by decide)]; omega
    have := Scans.int (L := handled) (long := false) (letter := 100) (ws := []) (sign := if x < 0 then [45] else []) (.inl rfl) (fun c hc => (nomatch hc))
      (by by_cases h0 : x < 0 <;> simp [h0]) hn.nonempty hn.digits (fun c hc => ?_) (by rw [hn.value]; exact hx x (List.mem_cons_self ..))
      (renders_scans ps ha.2 hr fun y hy => hx y (List.mem_cons_of_mem _ hy))
    · rw [hv] at this
      rw [List.append_assoc]
      exact this
    · cases ps with
      | nil => cases hr; cases hc
      | cons q qs =>
        cases q with
        | byte b => rw [(renders_head hr hc).1 _ rfl]; exact ha.1.2.2
        | white b =>
          rw [(renders_head hr hc).2.1 _ rfl]
          have hb : White b := by
            have := ha.2.1
            cases qs with
            | nil => exact this
            | cons q qs => cases q <;> first | exact this | exact this.2
          rintro ⟨v, hv, -⟩
          unfold White at hb
          unfold digitVal at hv
          rw [if_neg (by omega), if_neg (by omega)] at hv
          cases hv
        | percent => rw [(renders_head hr hc).2.2 rfl]; decide
        | char => exact ha.1.elim
        | int => exact ha.1.elim

theorem scans_length {L : ScanLimits} {ps : List ScanPiece} {s : List UInt8} {vs : List (List UInt8)} (h : Scans L ps s vs) : vs.length ≤ s.length := by
  induction h with
  | nil => exact Nat.zero_le _
  | byte _ _ _ ih => rw [List.length_cons]; omega
  | white _ _ _ _ _ ih => rw [List.length_append]; omega
  | percent _ _ _ ih => rw [List.length_append, List.length_cons]; omega
  | char _ ih => rw [List.length_cons, List.length_cons]; omega
  | int _ _ _ hne _ _ _ _ ih =>
    have := List.length_pos_iff.2 hne
    simp only [List.length_append, List.length_cons]; omega

end Mes.C
