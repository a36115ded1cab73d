import Verif.Model.Init
import Verif.Proof.Heap
/-
The sizes of the memory do not matter for what `main` does before it reads the program, as long as they are large enough.
-/
namespace Mes
open Res

/-- Sizes of the memory, and where the stack ends. -/
structure Dims where
  arena : Int
  jam : Int
  safety : Int
  limit : Int
  stackSize : Int
  sp : Int

/-- The same memory with other sizes. -/
def St.as (s : St) (u : Dims) : St :=
  { s with arena := u.arena, jam := u.jam, safety := u.safety, limit := u.limit, stackSize := u.stackSize, sp := u.sp }

namespace Wide

variable {u : Dims} {s s' : St} {α β : Type}

/-- The second memory is the first one with other sizes, which are not smaller. -/
def R (u : Dims) (s s' : St) : Prop := s' = s.as u ∧ s.arena ≤ u.arena

/-- Whatever the first program gives, the second one gives, too. -/
def Lift (V : α → α → Prop) (m m' : Res α) : Prop := ∀ a, m = ok a → ∃ a', m' = ok a' ∧ V a a'

/-- Equal values in memories of different sizes. -/
def P (u : Dims) (a a' : Int × St) : Prop := a'.1 = a.1 ∧ R u a.2 a'.2

theorem Lift.bind {V : α → α → Prop} {W : β → β → Prop} {m m' : Res α} {f f' : α → Res β} (h : Lift V m m') (hf : ∀ a a', V a a' → Lift W (f a) (f' a')) :
    Lift W (m >>= f) (m' >>= f') := fun b hb => by
  obtain ⟨a, h1, h2⟩ := Res.bind_eq_ok.1 hb
  obtain ⟨a', h3, h4⟩ := h a h1
  obtain ⟨b', h5, h6⟩ := hf a a' h4 b h2
  exact ⟨b', Res.bind_eq_ok.2 ⟨a', h3, h5⟩, h6⟩

theorem Lift.with {W : β → β → Prop} {m m' : Res (Int × St)} {f f' : Int × St → Res β} (h : Lift (P u) m m')
    (hf : ∀ x t t', R u t t' → Lift W (f (x, t)) (f' (x, t'))) : Lift W (m >>= f) (m' >>= f') :=
  h.bind fun a a' hV => by
    obtain ⟨x, t⟩ := a
    obtain ⟨x', t'⟩ := a'
    obtain ⟨h1, h2⟩ := hV
    cases h1
    exact hf x t t' h2

theorem Lift.read {W : β → β → Prop} {m m' : Res α} {f f' : α → Res β} (h : m' = m) (hf : ∀ a, Lift W (f a) (f' a)) : Lift W (m >>= f) (m' >>= f') := by
  subst h
  exact Lift.bind (V := Eq) (fun a ha => ⟨a, ha, rfl⟩) fun a a' e => by cases e; exact hf a

theorem Lift.ite {W : β → β → Prop} {p : Prop} [Decidable p] {m m' n n' : Res β} (h1 : Lift W m m') (h2 : Lift W n n') :
    Lift W (if p then m else n) (if p then m' else n') := by
  split
  · exact h1
  · exact h2

theorem lift_ok {V : α → α → Prop} {a a' : α} (h : V a a') : Lift V (ok a) (ok a') := fun b hb => by cases hb; exact ⟨a', rfl, h⟩
theorem lift_abort {V : α → α → Prop} {m : Res α} : Lift V abort m := fun _ h => by cases h
theorem lift_ub {V : α → α → Prop} {m : Res α} : Lift V ub m := fun _ h => by cases h
theorem lift_loop {V : α → α → Prop} {m : Res α} : Lift V loop m := fun _ h => by cases h
theorem lift_err {V : α → α → Prop} {m : Res α} {k : Key} : Lift V (err k) m := fun _ h => by cases h
theorem okP (h : R u s s') (x : Int) : Lift (P u) (ok (x, s)) (ok (x, s')) := lift_ok ⟨rfl, h⟩
theorem okS (h : R u s s') : Lift (R u) (ok s) (ok s') := lift_ok h

/-! ### Reading -/

theorem rd (h : R u s s') (a : Int) : s'.rd a = s.rd a := by rw [h.1]; rfl
theorem tag (h : R u s s') (a : Int) : s'.tag a = s.tag a := by rw [h.1]; rfl
theorem car (h : R u s s') (a : Int) : s'.car a = s.car a := by rw [h.1]; rfl
theorem cdr (h : R u s s') (a : Int) : s'.cdr a = s.cdr a := by rw [h.1]; rfl
theorem bytes (h : R u s s') (a : Int) : s'.bytes a = s.bytes a := by rw [h.1]; rfl
theorem symbols (h : R u s s') : s'.symbols = s.symbols := by rw [h.1]; rfl
theorem m0 (h : R u s s') : s'.m0 = s.m0 := by rw [h.1]; rfl
theorem r0 (h : R u s s') : s'.r0 = s.r0 := by rw [h.1]; rfl

theorem lengthLoop_as (h : R u s s') : ∀ (fuel : Nat) (n x : Int), lengthLoop s' fuel n x = lengthLoop s fuel n x
  | 0, _, _ => rfl
  | fuel + 1, n, x => by simp only [lengthLoop, rd h, lengthLoop_as h fuel]

theorem length_as (h : R u s s') (fuel : Nat) (x : Int) : length__ s' fuel x = length__ s fuel x := lengthLoop_as h fuel 0 x

theorem stringEqual_as (h : R u s s') (x y : Int) : stringEqual s' x y = stringEqual s x y := by
  simp only [stringEqual, rd h, bytes h, tag h, car h, cdr h]

theorem eqP_as (h : R u s s') (x y : Int) : eqP s' x y = eqP s x y := by
  simp only [eqP, rd h, stringEqual_as h]

theorem deref_as (h : R u s s') (x : Int) : deref s' x = deref s x := by simp only [deref, rd h]

theorem assocString_as (h : R u s s') (x : Int) : ∀ (fuel : Nat) (a : Int), assocString s' x fuel a = assocString s x fuel a
  | 0, _ => rfl
  | fuel + 1, a => by simp only [assocString, rd h, car h, tag h, stringEqual_as h, assocString_as h x fuel]

mutual
theorem equal2_as (h : R u s s') : ∀ (fuel : Nat) (a b : Int), equal2 s' fuel a b = equal2 s fuel a b
  | 0, _, _ => by simp only [equal2]
  | fuel + 1, a, b => by simp only [equal2, rd h, equal2_as h fuel, stringEqual_as h, equal2Vec_as h fuel, eqP_as h]
theorem equal2Vec_as (h : R u s s') : ∀ (fuel : Nat) (v w : Int) (n : Nat), equal2Vec s' fuel v w n = equal2Vec s fuel v w n
  | 0, _, _, _ => by simp only [equal2Vec]
  | _ + 1, _, _, 0 => by simp only [equal2Vec]
  | fuel + 1, v, w, n + 1 => by simp only [equal2Vec, deref_as h, equal2_as h fuel, equal2Vec_as h fuel]
end

theorem assocLoop_as (h : R u s s') (x : Int) (deep : Nat) : ∀ (fuel : Nat) (a : Int), assocLoop s' x deep fuel a = assocLoop s x deep fuel a
  | 0, _ => rfl
  | fuel + 1, a => by simp only [assocLoop, rd h, car h, equal2_as h, assocLoop_as h x deep fuel]

theorem assoc_as (h : R u s s') (fuel : Nat) (x a : Int) : assoc s' fuel x a = assoc s fuel x a := by
  simp only [assoc, tag h, assocString_as h, assocLoop_as h]

theorem hash_as (h : R u s s') (x size : Int) : hash_ s' x size = hash_ s x size := by simp only [hash_, rd h, bytes h]
theorem hashq_as (h : R u s s') (x size : Int) : hashq_ s' x size = hashq_ s x size := by simp only [hashq_, rd h, bytes h]

/-! ### Writing -/

theorem alloc_as (h : R u s s') (n : Int) : Lift (P u) (alloc s n) (alloc s' n) := by
  obtain ⟨rfl, h⟩ := h
  simp only [alloc]
  split
  · exact lift_abort
  · rename_i h1
    rw [if_neg (by have : (s.as u).free = s.free := rfl; have : (s.as u).arena = u.arena := rfl; omega)]
    exact lift_ok ⟨rfl, rfl, h⟩

theorem makeCell_as (h : R u s s') (t : Tag) (a d : Int) : Lift (P u) (makeCell s t a d) (makeCell s' t a d) := by
  obtain ⟨rfl, h⟩ := h
  simp only [makeCell]
  split
  · exact lift_abort
  · rename_i h1
    rw [if_neg (by have : (s.as u).free = s.free := rfl; have : (s.as u).arena = u.arena := rfl; omega)]
    exact lift_ok ⟨rfl, rfl, h⟩

theorem cons_as (h : R u s s') (x y : Int) : Lift (P u) (cons s x y) (cons s' x y) := makeCell_as h _ _ _
theorem makeNumber_as (h : R u s s') (x : Int) : Lift (P u) (makeNumber s x) (makeNumber s' x) := makeCell_as h _ _ _
theorem makeChar_as (h : R u s s') (x : Int) : Lift (P u) (makeChar s x) (makeChar s' x) := makeCell_as h _ _ _

theorem put_as (h : R u s s') (a : Int) (c : Cell) : Lift (R u) (s.put a c) (s'.put a c) := by
  obtain ⟨rfl, h⟩ := h
  simp only [St.put]
  have e : (s.as u).Valid a ↔ s.Valid a := Iff.rfl
  split
  · rename_i h1
    rw [if_pos (e.2 h1)]
    exact lift_ok ⟨rfl, h⟩
  · exact lift_ub

theorem setCar_as (h : R u s s') (a v : Int) : Lift (R u) (s.setCar a v) (s'.setCar a v) := Lift.read (rd h a) fun _ => put_as h _ _
theorem setCdr_as (h : R u s s') (a v : Int) : Lift (R u) (s.setCdr a v) (s'.setCdr a v) := Lift.read (rd h a) fun _ => put_as h _ _
theorem setTag_as (h : R u s s') (a : Int) (t : Tag) : Lift (R u) (s.setTag a t) (s'.setTag a t) := Lift.read (rd h a) fun _ => put_as h _ _
theorem copyCell_as (h : R u s s') (a b : Int) : Lift (R u) (s.copyCell a b) (s'.copyCell a b) := Lift.read (rd h b) fun _ => put_as h _ _

theorem makeBytes_as (h : R u s s') (bs : List Byte) : Lift (P u) (makeBytes s bs) (makeBytes s' bs) :=
  (alloc_as h _).with fun x _ _ h => (put_as h _ _).bind fun _ _ h => okP h x

theorem makeString_as (h : R u s s') (bs : List Byte) : Lift (P u) (makeString s bs) (makeString s' bs) := by
  have e : s'.maxString = s.maxString := by rw [h.1]; rfl
  simp only [makeString, e]
  exact .ite lift_err ((makeCell_as h _ _ _).with fun x _ _ h => (makeBytes_as h _).with fun _ _ _ h => (setCdr_as h _ _).bind fun _ _ h => okP h x)

theorem acons_as (h : R u s s') (k v a : Int) : Lift (P u) (acons s k v a) (acons s' k v a) := (cons_as h _ _).with fun _ _ _ h => cons_as h _ _

theorem setEntry_as (h : R u s s') (a e : Int) : Lift (R u) (setEntry s a e) (setEntry s' a e) := by
  refine Lift.with (u := u) ?_ fun _ _ _ h => copyCell_as h _ _
  refine Lift.read (rd h e) fun c => .ite (makeCell_as h _ _ _) (okP h _)

theorem fillVector_as : ∀ (n : Nat) {s s' : St} (v e : Int), R u s s' → Lift (R u) (fillVector n s v e) (fillVector n s' v e)
  | 0, _, _, _, _, h => okS h
  | n + 1, _, _, _, _, h => (setEntry_as h _ _).bind fun _ _ h => fillVector_as n _ _ h

theorem makeVector_as (h : R u s s') (k e : Int) : Lift (P u) (makeVector s k e) (makeVector s' k e) :=
  (alloc_as h _).with fun x _ _ h => (alloc_as h _).with fun _ _ _ h => (put_as h _ _).bind fun _ _ h => (fillVector_as _ _ _ h).bind fun _ _ h => okP h x

theorem fillStruct_as : ∀ (n : Nat) {s s' : St} (v f : Int), R u s s' → Lift (R u) (fillStruct n s v f) (fillStruct n s' v f)
  | 0, _, _, _, _, h => okS h
  | n + 1, s, s', v, f, h => by
    simp only [fillStruct]
    exact .ite ((setEntry_as h _ _).bind fun _ _ h => fillStruct_as n _ _ h)
      (.read (rd h f) fun _ => (setEntry_as h _ _).bind fun _ _ h => fillStruct_as n _ _ h)

theorem makeStruct_as (h : R u s s') (fuel : Nat) (t f p : Int) : Lift (P u) (makeStruct s fuel t f p) (makeStruct s' fuel t f p) :=
  .read (length_as h fuel f) fun _ => (alloc_as h _).with fun x _ _ h => (alloc_as h _).with fun _ _ _ h => (put_as h _ _).bind fun _ _ h =>
    (setEntry_as h _ _).bind fun _ _ h => (setEntry_as h _ _).bind fun _ _ h => (fillStruct_as _ _ _ h).bind fun _ _ h => okP h x

theorem fetch_as (h : R u s s') (e : Int) : Lift (P u) (fetch s e) (fetch s' e) :=
  .read (deref_as h e) fun e => .read (rd h e) fun _ => .ite (makeChar_as h _) (.ite (makeNumber_as h _) (okP h _))

theorem vectorRef_as (h : R u s s') (x i : Int) : Lift (P u) (vectorRef s x i) (vectorRef s' x i) :=
  .read (rd h x) fun _ => .read rfl fun _ => .read rfl fun _ => fetch_as h _
theorem structRef_as (h : R u s s') (x i : Int) : Lift (P u) (structRef s x i) (structRef s' x i) :=
  .read (rd h x) fun _ => .read rfl fun _ => .read rfl fun _ => fetch_as h _
theorem vectorSet_as (h : R u s s') (x i e : Int) : Lift (P u) (vectorSet s x i e) (vectorSet s' x i e) :=
  .read (rd h x) fun _ => .read rfl fun _ => .read rfl fun _ => (setEntry_as h _ _).bind fun _ _ h => okP h _

/-! ### Tables and symbols -/

theorem hashSet__as (h : R u s s') (t n k v : Int) : Lift (P u) (hashSet_ s t n k v) (hashSet_ s' t n k v) :=
  (structRef_as h _ _).with fun _ _ _ h => (vectorRef_as h _ _).with fun b _ _ h => .read (rd h b) fun _ => (acons_as h _ _ _).with fun _ _ _ h =>
    (vectorSet_as h _ _ _).with fun _ _ _ h => okP h _

theorem hashSet_as (h : R u s s') (t k v : Int) : Lift (P u) (hashSet s t k v) (hashSet s' t k v) :=
  (structRef_as h _ _).with fun z _ _ h => .read (cdr h z) fun n => .read (hash_as h k n) fun _ => hashSet__as h _ _ _ _

theorem hashqSet_as (h : R u s s') (t k v : Int) : Lift (P u) (hashqSet s t k v) (hashqSet s' t k v) :=
  (structRef_as h _ _).with fun z _ _ h => .read (cdr h z) fun n => .read (hashq_as h k n) fun _ => hashSet__as h _ _ _ _

theorem hashRef_as (h : R u s s') (fuel : Nat) (t k d : Int) : Lift (P u) (hashRef s fuel t k d) (hashRef s' fuel t k d) :=
  (structRef_as h _ _).with fun z _ _ h => .read (cdr h z) fun n => .read (hash_as h k n) fun _ => (structRef_as h _ _).with fun _ _ _ h =>
    (vectorRef_as h _ _).with fun b _ _ h => .read (rd h d) fun _ => .read (rd h b) fun _ => .ite
      (.read (assoc_as h fuel k b) fun x => .ite (.read (cdr h x) fun _ => okP h _) (okP h _)) (okP h _)

theorem makeHashqType_as (h : R u s s') (fuel : Nat) : Lift (P u) (makeHashqType s fuel) (makeHashqType s' fuel) :=
  (cons_as h _ _).with fun _ _ _ h => (cons_as h _ _).with fun _ _ _ h => (cons_as h _ _).with fun _ _ _ h => (cons_as h _ _).with fun _ _ _ h => makeStruct_as h _ _ _ _

theorem makeHashTable_as (h : R u s s') (fuel : Nat) (n : Int) : Lift (P u) (makeHashTable s fuel n) (makeHashTable s' fuel n) :=
  (makeHashqType_as h _).with fun _ _ _ h => (makeVector_as h _ _).with fun _ _ _ h => (cons_as h _ _).with fun _ _ _ h => (makeNumber_as h _).with fun _ _ _ h =>
    (cons_as h _ _).with fun _ _ _ h => (cons_as h _ _).with fun _ _ _ h => makeStruct_as h _ _ _ _

theorem makeSymbol_as (h : R u s s') (x : Int) : Lift (P u) (makeSymbol s x) (makeSymbol s' x) :=
  .read (rd h x) fun _ => (makeCell_as h _ _ _).with fun _ _ _ h => by
    dsimp only
    rw [symbols h]
    exact (hashSet_as h _ _ _).with fun _ _ _ h => okP h _

theorem stringToSymbol_as (h : R u s s') (fuel : Nat) (x : Int) : Lift (P u) (stringToSymbol s fuel x) (stringToSymbol s' fuel x) := by
  simp only [stringToSymbol, symbols h]
  exact (hashRef_as h _ _ _ _).with fun _ _ _ h => .ite (makeSymbol_as h _) (okP h _)

theorem cstringToSymbol_as (h : R u s s') (fuel : Nat) (bs : List Byte) : Lift (P u) (cstringToSymbol s fuel bs) (cstringToSymbol s' fuel bs) :=
  (makeString_as h _).with fun _ _ _ h => stringToSymbol_as h _ _

theorem symbolToString_as (h : R u s s') (x : Int) : Lift (P u) (symbolToString s x) (symbolToString s' x) := .read (rd h x) fun _ => makeCell_as h _ _ _

theorem moduleDefine_as (h : R u s s') (k v : Int) : Lift (P u) (moduleDefine s k v) (moduleDefine s' k v) := by
  simp only [moduleDefine, m0 h]
  exact (structRef_as h _ _).with fun _ _ _ h => hashqSet_as h _ _ _

/-! ### The set-up -/

theorem initSymbol_as (h : R u s s') (x : Int) (t : Tag) (n : List Byte) : Lift (R u) (initSymbol s x t n) (initSymbol s' x t n) :=
  (setTag_as h _ _).bind fun _ _ h => (makeString_as h _).with fun y _ _ h => (setCar_as h _ _).bind fun _ _ h => .read (cdr h y) fun _ => (setCdr_as h _ _).bind fun _ _ h => by
    rw [symbols h]
    exact (hashSet_as h _ _ _).with fun _ _ _ h => okS h

theorem initSymbols0_as : ∀ (l : List (Tag × List Byte)) {s s' : St}, R u s s' → R u (initSymbols0 l s) (initSymbols0 l s')
  | [], _, _, h => h
  | e :: l, s, s', h => initSymbols0_as l (by obtain ⟨rfl, h⟩ := h; exact ⟨rfl, h⟩)

theorem initSymbols__as : ∀ (l : List (Tag × List Byte)) {s s' : St} (x : Int), R u s s' → Lift (R u) (initSymbols_ l s x) (initSymbols_ l s' x)
  | [], _, _, _, h => okS h
  | _ :: l, _, _, _, h => (initSymbol_as h _ _ _).bind fun _ _ h => initSymbols__as l _ h

theorem regs (h : R u s s') (f : St → St) (hf : ∀ t : St, f (t.as u) = (f t).as u) (ha : (f s).arena = s.arena) : R u (f s) (f s') := by
  obtain ⟨rfl, h⟩ := h
  exact ⟨hf s, by rw [ha]; exact h⟩

theorem initSymbols_as (h : R u s s') (fuel : Nat) : Lift (R u) (initSymbols s fuel) (initSymbols s' fuel) := by
  have h0 := initSymbols0_as predefined (regs h (fun t => { t with free := c_nil, symbols := 0 }) (fun _ => rfl) rfl)
  exact (makeHashTable_as h0 _ _).with fun t _ _ h => (initSymbols__as _ _ (regs h (fun s => { s with symbols := t }) (fun _ => rfl) rfl)).bind fun _ _ h =>
    okS (regs h (fun s => { s with ports := c_nil }) (fun _ => rfl) rfl)

theorem aconsNumber_as (h : R u s s') (k n a : Int) : Lift (P u) (aconsNumber s k n a) (aconsNumber s' k n a) := (makeNumber_as h _).with fun _ _ _ h => acons_as h _ _ _
theorem aconsString_as (h : R u s s') (k : Int) (bs : List Byte) (a : Int) : Lift (P u) (aconsString s k bs a) (aconsString s' k bs a) :=
  (makeString_as h _).with fun _ _ _ h => acons_as h _ _ _

theorem aconsTypes_as : ∀ (l : List (Int × Tag)) {s s' : St} (a : Int), R u s s' → Lift (P u) (aconsTypes l s a) (aconsTypes l s' a)
  | [], _, _, _, h => okP h _
  | _ :: l, _, _, _, h => (aconsNumber_as h _ _ _).with fun _ _ _ h => aconsTypes_as l _ h

theorem initConstants_as (h : R u s s') (o : Setup) : Lift (P u) (initConstants s o) (initConstants s' o) :=
  (acons_as h _ _ _).with fun _ _ _ h => (acons_as h _ _ _).with fun _ _ _ h => (acons_as h _ _ _).with fun _ _ _ h => (aconsString_as h _ _ _).with fun _ _ _ h =>
    (aconsString_as h _ _ _).with fun _ _ _ h => (aconsTypes_as _ _ h).with fun _ _ _ h => acons_as h _ _ _

theorem argvList_as : ∀ (l : List (List Byte)) {s s' : St} (x : Int), R u s s' → Lift (P u) (argvList l s x) (argvList l s' x)
  | [], _, _, _, h => okP h _
  | _ :: l, _, _, _, h => (makeString_as h _).with fun _ _ _ h => (cons_as h _ _).with fun _ _ _ h => argvList_as l _ h

/-- `mes_g_stack` moves the end of the stack. -/
theorem mesGStack_as (h : R u s s') (a : Int) : Lift (P { u with sp := u.stackSize }) (mesGStack s a) (mesGStack s' a) := by
  have h0 : R { u with sp := u.stackSize } { s with sp := s.stackSize, r0 := a } { s' with sp := s'.stackSize, r0 := a } := by
    obtain ⟨rfl, h⟩ := h
    exact ⟨rfl, h⟩
  exact (makeChar_as h0 _).with fun x _ _ h => (makeChar_as (regs h (fun s => { s with r1 := x }) (fun _ => rfl) rfl) _).with fun y _ _ h =>
    (makeChar_as (regs h (fun s => { s with r2 := y }) (fun _ => rfl) rfl) _).with fun z t t' h => by
      have h' := regs h (fun s => { s with r3 := z }) (fun _ => rfl) rfl
      exact lift_ok ⟨r0 h, h'⟩

theorem mesEnvironment_as (h : R u s s') (fuel : Nat) (o : Setup) : Lift (P { u with sp := u.stackSize }) (mesEnvironment s fuel o) (mesEnvironment s' fuel o) :=
  (initSymbols_as h _).bind fun _ _ h => (initConstants_as h _).with fun _ _ _ h => (aconsString_as h _ _ _).with fun _ _ _ h => (aconsString_as h _ _ _).with fun _ _ _ h =>
    (argvList_as _ _ h).with fun _ _ _ h => (acons_as h _ _ _).with fun _ _ _ h => mesGStack_as h _

theorem recordType_as (h : R u s s') (fuel : Nat) : Lift (P u) (makeBuiltinType s fuel) (makeBuiltinType s' fuel) :=
  (cstringToSymbol_as h _ _).with fun _ _ _ h => (cons_as h _ _).with fun _ _ _ h => (cstringToSymbol_as h _ _).with fun _ _ _ h => (cons_as h _ _).with fun _ _ _ h =>
    (cstringToSymbol_as h _ _).with fun _ _ _ h => (cons_as h _ _).with fun _ _ _ h => (cons_as h _ _).with fun _ _ _ h => (cons_as h _ _).with fun _ _ _ h => makeStruct_as h _ _ _ _

theorem makeModuleType_as (h : R u s s') (fuel : Nat) : Lift (P u) (makeModuleType s fuel) (makeModuleType s' fuel) :=
  (cstringToSymbol_as h _ _).with fun _ _ _ h => (cons_as h _ _).with fun _ _ _ h => (cstringToSymbol_as h _ _).with fun _ _ _ h => (cons_as h _ _).with fun _ _ _ h =>
    (cstringToSymbol_as h _ _).with fun _ _ _ h => (cons_as h _ _).with fun _ _ _ h => (cons_as h _ _).with fun _ _ _ h => (cons_as h _ _).with fun _ _ _ h => makeStruct_as h _ _ _ _

theorem makeBuiltin_as (h : R u s s') (fuel : Nat) (t n a f : Int) : Lift (P u) (makeBuiltin s fuel t n a f) (makeBuiltin s' fuel t n a f) :=
  (cons_as h _ _).with fun _ _ _ h => (cons_as h _ _).with fun _ _ _ h => (cons_as h _ _).with fun _ _ _ h => (cons_as h _ _).with fun _ _ _ h =>
    (cstringToSymbol_as h _ _).with fun _ _ _ h => makeStruct_as h _ _ _ _

theorem initBuiltin_as (h : R u s s') (fuel : Nat) (t : Int) (n : List Byte) (r i a : Int) : Lift (P u) (initBuiltin s fuel t n r i a) (initBuiltin s' fuel t n r i a) :=
  (cstringToSymbol_as h _ _).with fun _ _ _ h => (symbolToString_as h _).with fun _ _ _ h => (makeNumber_as h _).with fun _ _ _ h => (makeNumber_as h _).with fun _ _ _ h =>
    (makeBuiltin_as h _ _ _ _ _).with fun _ _ _ h => acons_as h _ _ _

theorem initBuiltins_as (fuel : Nat) (t : Int) : ∀ (l : List (List Byte × Int × Int)) {s s' : St} (a : Int), R u s s' → Lift (P u) (initBuiltins fuel t l s a) (initBuiltins fuel t l s' a)
  | [], _, _, _, h => okP h _
  | _ :: l, _, _, _, h => (initBuiltin_as h _ _ _ _ _ _).with fun _ _ _ h => initBuiltins_as fuel t l _ h

theorem mesBuiltins_as (h : R u s s') (fuel : Nat) (o : Setup) (a : Int) : Lift (P u) (mesBuiltins s fuel o a) (mesBuiltins s' fuel o a) :=
  (recordType_as h _).with fun _ _ _ h => initBuiltins_as _ _ _ _ h

theorem initTime_as (h : R u s s') (o : Setup) (a : Int) : Lift (P u) (initTime s o a) (initTime s' o a) :=
  (aconsNumber_as h _ _ _).with fun _ _ _ h => .ite (okP h _) lift_ub

theorem defineAll_as : ∀ (fuel : Nat) {s s' : St} (a : Int), R u s s' → Lift (R u) (defineAll fuel s a) (defineAll fuel s' a)
  | 0, _, _, _, _ => lift_loop
  | fuel + 1, s, s', a, h => by
    simp only [defineAll]
    exact .read (rd h a) fun c => .ite (.read (rd h _) fun _ => (moduleDefine_as h _ _).with fun _ _ _ h => .read (cdr h a) fun _ => defineAll_as fuel _ h) (okS h)

theorem makeInitialModule_as (h : R u s s') (fuel more : Nat) (a : Int) : Lift (P u) (makeInitialModule s fuel more a) (makeInitialModule s' fuel more a) :=
  (makeModuleType_as h _).with fun _ _ _ h => (acons_as h _ _ _).with fun _ _ _ h => (makeHashqType_as h _).with fun _ _ _ h => (acons_as h _ _ _).with fun _ _ _ h =>
    (cstringToSymbol_as h _ _).with fun _ _ _ h => (cons_as h _ _).with fun _ _ _ h => (makeHashTable_as h _ _).with fun _ _ _ h => (cons_as h _ _).with fun _ _ _ h =>
    (cons_as h _ _).with fun _ _ _ h => (cons_as h _ _).with fun _ _ _ h => (cons_as h _ _).with fun _ _ _ h => (cstringToSymbol_as h _ _).with fun _ _ _ h =>
    (makeStruct_as h _ _ _ _).with fun m _ _ h => by
      have h := regs h (fun s => { s with r0 := c_nil }) (fun _ => rfl) rfl
      refine .read (cdr h _) fun b => .read (car h b) fun _ => ?_
      rw [r0 h]
      refine (cons_as h _ _).with fun x _ _ h => ?_
      have h := regs h (fun s => { s with r0 := x }) (fun _ => rfl) rfl
      refine .read (car h _) fun _ => ?_
      dsimp only
      refine (cons_as h _ _).with fun y _ _ h => ?_
      exact (defineAll_as _ _ (regs h (fun s => { s with r0 := y, m0 := m }) (fun _ => rfl) rfl)).bind fun _ _ h => okP h _

/-- What `main` does before it reads the program does not depend on the sizes. -/
theorem mainSetup_as (h : R u s s') (fuel more : Nat) (o : Setup) : Lift (R { u with sp := u.stackSize }) (mainSetup s fuel more o) (mainSetup s' fuel more o) :=
  (mesEnvironment_as h _ _).with fun _ _ _ h => (mesBuiltins_as h _ _ _).with fun _ _ _ h => (initTime_as h _ _).with fun _ _ _ h =>
    (makeInitialModule_as h _ _ _).with fun m _ _ h => (makeHashTable_as (regs h (fun s => { s with m0 := m }) (fun _ => rfl) rfl) _ _).with fun x _ _ h =>
    okS (regs h (fun s => { s with macros := x }) (fun _ => rfl) rfl)

end Wide
end Mes
