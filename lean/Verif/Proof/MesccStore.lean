import Verif.Proof.MesccStmt

/-
Storing a value in a variable, entering and leaving a function.
-/
namespace Mes.X86
open Mes.Mescc Mes.CLang

section
variable {X : Frame} {V : Nat → Word} {T : List (List Line)} {base : Word} {i : Info} {m m' : Mach} {w : Word} {Q : Flags → Prop}

/-- Another value of a word. -/
def setV (V : Nat → Word) (k : Nat) (w : Word) : Nat → Word := fun j => if j = k then w else V j

theorem St.poke (hX : X.Ok) {k : Nat} {u : Word} (h : St X V [w] m) (hr : m'.reg = m.reg) (hm : m'.mem = poke m.mem (X.at k) u)
    (h1 : X.room ≤ k) (h2 : k < X.words) : St X (setV V k u) [w] m' := by
  refine ⟨by rw [hr]; exact h.bp, h.len, by rw [hr]; exact h.sp, by rw [hr]; exact h.top, trivial, ?_, ?_⟩
  · intro j g1 g2
    rw [hm, word_poke X hX _ g2 h2]
    unfold setV
    split
    · rfl
    · exact h.vars j g1 g2
  · intro x hx
    rw [hm, poke_outside X hX _ h2 _ hx]
    exact h.prot x hx

theorem ne_add (a : Word) {j k : Nat} (hj : j < 4) (hk : k < 4) (h : j ≠ k) : a + BitVec.ofNat 32 j ≠ a + BitVec.ofNat 32 k := by
  intro e
  have e' : BitVec.ofNat 32 j = BitVec.ofNat 32 k := by
    have := congrArg (fun x => x - a) e
    simpa only [BitVec.add_comm a, BitVec.add_sub_cancel] using this
  have := congrArg BitVec.toNat e'
  simp only [BitVec.toNat_ofNat] at this
  omega

theorem word4_ext (a b c d : Byte8) :
    (word4 a b c d).extractLsb' 0 8 = a ∧ (word4 a b c d).extractLsb' 8 8 = b ∧ (word4 a b c d).extractLsb' 16 8 = c ∧
    (word4 a b c d).extractLsb' 24 8 = d := by
  unfold word4
  refine ⟨?_, ?_, ?_, ?_⟩ <;>
  · apply BitVec.eq_of_getLsbD_eq
    intro i hi
    simp only [BitVec.getLsbD_extractLsb', BitVec.getLsbD_append, hi, decide_true, Bool.true_and]
    repeat (first | rw [if_pos (by omega)] | rw [if_neg (by omega)])
    try (congr 1; omega)

/-- The memory after a byte was written, as if a word were. -/
theorem poke_byte (mem : Word → Byte8) (a : Word) (b : Byte8) :
    (fun x => if x = a then b else mem x) = poke mem a (word4 b (mem (a + 1)) (mem (a + 2)) (mem (a + 3))) := by
  obtain ⟨e0, e1, e2, e3⟩ := word4_ext b (mem (a + 1)) (mem (a + 2)) (mem (a + 3))
  funext x
  unfold poke
  rw [e0, e1, e2, e3]
  have n1 : a ≠ a + 1 := by simpa using ne_add a (j := 0) (k := 1) (by omega) (by omega) (by omega)
  have n2 : a ≠ a + 2 := by simpa using ne_add a (j := 0) (k := 2) (by omega) (by omega) (by omega)
  have n3 : a ≠ a + 3 := by simpa using ne_add a (j := 0) (k := 3) (by omega) (by omega) (by omega)
  by_cases h : x = a
  · subst h; simp only [if_neg n3, if_neg n2, if_neg n1, if_true]
  · rw [if_neg h]
    split
    · rename_i h; rw [h]
    · split
      · rename_i h; rw [h]
      · split
        · rename_i h; rw [h]
        · rfl

/-- The memory after two bytes were written, as if a word were. -/
theorem poke_half (mem : Word → Byte8) (a : Word) (b c : Byte8) :
    (fun x => if x = a + 1 then c else if x = a then b else mem x) = poke mem a (word4 b c (mem (a + 2)) (mem (a + 3))) := by
  obtain ⟨e0, e1, e2, e3⟩ := word4_ext b c (mem (a + 2)) (mem (a + 3))
  funext x
  unfold poke
  rw [e0, e1, e2, e3]
  have n2 : a ≠ a + 2 := by simpa using ne_add a (j := 0) (k := 2) (by omega) (by omega) (by omega)
  have n3 : a ≠ a + 3 := by simpa using ne_add a (j := 0) (k := 3) (by omega) (by omega) (by omega)
  have m2 : a + 1 ≠ a + 2 := by simpa using ne_add a (j := 1) (k := 2) (by omega) (by omega) (by omega)
  have m3 : a + 1 ≠ a + 3 := by simpa using ne_add a (j := 1) (k := 3) (by omega) (by omega) (by omega)
  by_cases h1 : x = a + 1
  · subst h1; simp only [if_neg m3, if_neg m2, if_true]
  · rw [if_neg h1]
    by_cases h : x = a
    · subst h; simp only [if_neg n3, if_neg n2, if_neg h1, if_true]
    · rw [if_neg h]
      split
      · rename_i h; rw [h]
      · split
        · rename_i h; rw [h]
        · rfl

theorem conv_low8 {t : Ty} (ht : t.size = 1) (w : Word) (b c d : Byte8) :
    conv t (word4 (((w.extractLsb' 0 8).setWidth 32).extractLsb' 0 8) b c d) = conv t w := by
  have e : (word4 (((w.extractLsb' 0 8).setWidth 32).extractLsb' 0 8) b c d).setWidth 8 = w.setWidth 8 := by
    apply BitVec.eq_of_getLsbD_eq
    intro i hi
    unfold word4
    simp only [BitVec.getLsbD_setWidth, BitVec.getLsbD_append, BitVec.getLsbD_extractLsb']
    have : i < 32 := by omega
    simp [hi, this]
  unfold conv
  simp only [ht, e, true_and, if_true]

theorem conv_low16 {t : Ty} (ht : t.size = 2) (w : Word) (c d : Byte8) :
    conv t (word4 (((w.extractLsb' 0 16).setWidth 32).extractLsb' 0 8) (((w.extractLsb' 0 16).setWidth 32).extractLsb' 8 8) c d) = conv t w := by
  have e : (word4 (((w.extractLsb' 0 16).setWidth 32).extractLsb' 0 8) (((w.extractLsb' 0 16).setWidth 32).extractLsb' 8 8) c d).setWidth 16 =
      w.setWidth 16 := by
    apply BitVec.eq_of_getLsbD_eq
    intro i hi
    unfold word4
    simp only [BitVec.getLsbD_setWidth, BitVec.getLsbD_append, BitVec.getLsbD_extractLsb']
    have h32 : i < 32 := by omega
    by_cases h : i < 8
    · simp [h, hi, h32]
    · have h2 : i - 8 < 8 := by omega
      simp [h, h2]
      rw [show 8 + (i - 8) = i by omega]
      simp [hi, h32]
  unfold conv
  simp only [ht, e]
  simp

/-- `mov %eax,n(%ebp)`. -/
theorem Reach.store (hX : X.Ok) (hT : CodeAt X base T.flatten) {id : Int} {j : Info} (h : Reach X V base m i [w] Q) (hr : Regs j 1)
    (h0 : 0 ≤ ((X.room + X.locals : Nat) : Int) - id) (h1 : X.room ≤ slot X id) (h2 : slot X id < X.words)
    (hp : (appendText i [rToLocal j id]).text <+: T) :
    Reach X (setV V (slot X id) w) base m (appendText i [rToLocal j id]) [w] (fun _ => True) := by
  obtain ⟨m', g1, g2, g3, -⟩ := h
  have hh := here_of hT hp g2 g3.prot
  have ha := slot_address id h0
  have ht : m'.reg .eax = w := g3.top
  have key : ∃ m'', Steps m' m'' ∧ m''.eip = m'.eip + BitVec.ofNat 32 (textSize (rToLocal j id)) ∧ m''.reg = m'.reg ∧
      m''.mem = poke m'.mem (X.at (slot X id)) w := by
    unfold rToLocal at hh ⊢
    rw [getR_one hr] at hh ⊢
    simp only at hh ⊢
    split at hh
    · rename_i hn
      rw [if_pos hn]
      obtain ⟨m'', k1, k2, k3, -⟩ := i_store8_eax hh hn
      exact ⟨m'', k1.steps, k1.eip1 rfl, k2, by rw [k3, g3.bp, ha, ht]⟩
    · rename_i hn
      rw [if_neg hn]
      obtain ⟨m'', k1, k2, k3, -⟩ := i_store32_eax hh
      exact ⟨m'', k1.steps, k1.eip1 rfl, k2, by rw [k3, g3.bp, ha, ht]⟩
  obtain ⟨m'', k1, k2, k3, k4⟩ := key
  exact ⟨m'', g1.trans k1, by rw [k2, g2]; exact (pos_append ..).symm, g3.poke hX k3 k4 h1 h2, trivial⟩

theorem undefined {name : String} {args : List Arg} {ls : List Line} (h : Here X m (.ins name args :: ls)) (hn : defines.lookup name = none) :
    False := by
  obtain ⟨⟨bs, hb, -⟩, -⟩ := h.code
  simp [Line.bytes, hn] at hb

/-- The first value of a variable. -/
theorem Reach.init (hX : X.Ok) (hT : CodeAt X base T.flatten) {l : Local} {j : Info} (h : Reach X V base m i [w] Q) (hr : Regs j 1)
    (hl : l.type.Ok) (h0 : 0 ≤ ((X.room + X.locals : Nat) : Int) - l.id) (h1 : X.room ≤ slot X l.id) (h2 : slot X l.id < X.words)
    (hp : (appendText i (rToLocalNText j l 0)).text <+: T) :
    ∃ u, conv l.type u = conv l.type w ∧
      Reach X (setV V (slot X l.id) u) base m (appendText i (rToLocalNText j l 0)) [w] (fun _ => True) := by
  have e0 : ∀ id : Int, rToLocalN j id 0 = rToLocal j id := fun id => by unfold rToLocalN rToLocal; simp only [Int.add_zero]
  rcases hl with hs | hs | hs
  · have e : rToLocalNText j l 0 = [byteRToLocalN j l.id 0] := by unfold rToLocalNText; rw [hs]; rfl
    rw [e] at hp ⊢
    obtain ⟨m', g1, g2, g3, -⟩ := h
    have hh := here_of hT hp g2 g3.prot
    have ha := slot_address l.id h0
    have ht : m'.reg .eax = w := g3.top
    have key : ∃ m'', Steps m' m'' ∧ m''.eip = m'.eip + BitVec.ofNat 32 (textSize (byteRToLocalN j l.id 0)) ∧ m''.reg = m'.reg ∧
        ∃ u, conv l.type u = conv l.type w ∧ m''.mem = poke m'.mem (X.at (slot X l.id)) u := by
      unfold byteRToLocalN at hh ⊢
      rw [getR_one hr] at hh ⊢
      simp only [Int.add_zero] at hh ⊢
      split at hh
      · rename_i hn
        rw [if_pos hn]
        obtain ⟨m'', k1, k2, k3, -⟩ := i_store8_al hh hn
        rw [poke_byte, g3.bp, ha, ht] at k3
        exact ⟨m'', k1.steps, k1.eip1 rfl, k2, _, conv_low8 hs w _ _ _, k3⟩
      · exact (undefined hh (by rfl)).elim
    obtain ⟨m'', k1, k2, k3, u, k4, k5⟩ := key
    exact ⟨u, k4, m'', g1.trans k1, by rw [k2, g2]; exact (pos_append ..).symm, g3.poke hX k3 k5 h1 h2, trivial⟩
  · have e : rToLocalNText j l 0 = [wordRToLocalN j l.id 0] := by unfold rToLocalNText; rw [hs]; rfl
    rw [e] at hp ⊢
    obtain ⟨m', g1, g2, g3, -⟩ := h
    have hh := here_of hT hp g2 g3.prot
    have ha := slot_address l.id h0
    have ht : m'.reg .eax = w := g3.top
    have key : ∃ m'', Steps m' m'' ∧ m''.eip = m'.eip + BitVec.ofNat 32 (textSize (wordRToLocalN j l.id 0)) ∧ m''.reg = m'.reg ∧
        ∃ u, conv l.type u = conv l.type w ∧ m''.mem = poke m'.mem (X.at (slot X l.id)) u := by
      unfold wordRToLocalN at hh ⊢
      rw [getR_one hr] at hh ⊢
      simp only [Int.add_zero] at hh ⊢
      split at hh
      · rename_i hn
        rw [if_pos hn]
        obtain ⟨m'', k1, k2, k3, -⟩ := i_store8_ax hh hn
        rw [poke_half, g3.bp, ha, ht] at k3
        exact ⟨m'', k1.steps, k1.eip1 rfl, k2, _, conv_low16 hs w _ _, k3⟩
      · exact (undefined hh (by rfl)).elim
    obtain ⟨m'', k1, k2, k3, u, k4, k5⟩ := key
    exact ⟨u, k4, m'', g1.trans k1, by rw [k2, g2]; exact (pos_append ..).symm, g3.poke hX k3 k5 h1 h2, trivial⟩
  · have e : rToLocalNText j l 0 = [rToLocal j l.id] := by unfold rToLocalNText; rw [hs, e0]; rfl
    rw [e] at hp ⊢
    exact ⟨w, rfl, h.store hX hT hr h0 h1 h2 hp⟩

/-- The frame pointer of the caller and the return address are in their places. -/
structure Saved (X : Frame) (V : Nat → Word) : Prop where
  bp : V (X.room + X.locals) = X.savedBp
  ret : V (X.room + X.locals + 1) = X.retAddr

/-- The function returns a value. -/
def Returned (X : Frame) (m : Mach) (w : Word) : Prop :=
  ∃ m', Steps m m' ∧ m'.eip = X.retAddr ∧ m'.reg .eax = w ∧ m'.reg .esp = X.bp + 8 ∧ m'.reg .ebp = X.savedBp ∧
    ∀ x, ¬ X.Inside x → m'.mem x = X.M x

theorem Reach.ret (hT : CodeAt X base T.flatten) (hs : Saved X V) (h : Reach X V base m i [w] Q) (hp : (appendText i [Mescc.ret]).text <+: T) :
    Returned X m w := by
  obtain ⟨m1, g1, g2, g3, -⟩ := h
  obtain ⟨m2, k1, k2, k3, -⟩ := i_leave (here_of hT hp g2 g3.prot)
  obtain ⟨m3, j1, j2, j3, j4, -⟩ := i_ret (k1.here (by rw [k3]; exact g3.prot))
  have hbp : word m1.mem X.bp = X.savedBp := by
    rw [← hs.bp]; exact g3.vars _ (by omega) (by unfold Frame.words; omega)
  have hret : word m1.mem (X.bp + 4) = X.retAddr := by
    rw [← hs.ret]
    have := g3.vars (X.room + X.locals + 1) (by omega) (by unfold Frame.words; omega)
    unfold Frame.bp
    rw [X.at_add4]
    exact this
  have hsp : m2.reg .esp = X.bp + 4 := by rw [k2]; show m1.reg .ebp + 4 = _; rw [g3.bp]
  refine ⟨m3, (g1.trans k1.steps).trans j1, ?_, ?_, ?_, ?_, ?_⟩
  · rw [j2, k3, hsp, hret]
  · rw [j3, k2]; exact g3.top
  · rw [j3]; show m2.reg .esp + 4 = _; rw [hsp, BitVec.add_assoc]; rfl
  · rw [j3, k2]; show word m1.mem (m1.reg .ebp) = _; rw [g3.bp, hbp]
  · intro x hx; rw [j4, k3]; exact g3.prot x hx

end

end Mes.X86
