import Verif.Proof.MesccBin

/-
The code of an expression, as a value and as a condition.
-/
namespace Mes.X86
open Mes.Mescc Mes.CLang

/-- What the flags are after an expression. -/
def Post (e : Expr) (v : Int) (f : Flags) : Prop :=
  match e with
  | .un .not _ => f.zf = decide (v = 0)
  | .bin op _ _ => PostB op v f
  | _ => True

theorem bin_test (op : Binop) (a b : Expr) (l : String) : (compile (.bin op a b)).test l =
    (match op with
      | .le | .lt | .ge | .gt => jumpWith (compile (.bin op a b)).reg jumpZ none
      | .ne | .eq => jumpWith (compile (.bin op a b)).reg jumpNz none
      | _ => jumpWith (compile (.bin op a b)).reg jumpZ (some rZero)) l := by
  cases op <;> rfl

section
variable {X : Frame} {V : Nat → Word} {T : List (List Line)} {base : Word} {L : List (String × Local)} {ρ : Store}

theorem neg_ok (hX : X.Ok) (hT : CodeAt X base T.flatten) {reg : Info → Info} {n need : Nat} {w : Word} {Q : Flags → Prop}
    (hg : ∀ i n, Grows i n (reg i) (n + 1)) (h : Eok X V T base L reg n need w Q) :
    Eok X V T base L (fun i =>
        let i := reg i
        let i := allocateRegister i
        let i := appendText i ([valueToR i 0] ++ [swapR0R1 i] ++ [r0SubR1 i])
        freeRegister i) n (max need 2) (0 - w) (fun _ => True) := by
  intro i d m Q0 h1 h2 h3 h4 h5 h6
  subst h1
  have r1 := (hg i _).regs h2
  have r2 : Regs (allocateRegister (reg i)) (d.length + 2) := r1.alloc
  generalize hj : allocateRegister (reg i) = j at r2
  have h5 : (freeRegister (appendText j ([valueToR j 0] ++ [swapR0R1 j] ++ [r0SubR1 j]))).text <+: T := by rw [← hj]; exact h5
  show Reach X V base m (freeRegister (appendText (allocateRegister (reg i)) ([valueToR (allocateRegister (reg i)) 0] ++
    [swapR0R1 (allocateRegister (reg i))] ++ [r0SubR1 (allocateRegister (reg i))]))) _ _
  rw [hj]
  have e0 : appendText j ([valueToR j 0] ++ [swapR0R1 j] ++ [r0SubR1 j]) =
      appendText (appendText (appendText j [valueToR j 0]) [swapR0R1 j]) [r0SubR1 j] := by simp [appendText]
  rw [e0] at h5 ⊢
  have e1 := free_text.trans h5
  have e2 := (prefix_append _).trans e1
  have e3 := (prefix_append _).trans e2
  have e4 := (prefix_append _).trans e3
  obtain ⟨u, s1⟩ := (h i d m Q0 rfl h2 h3 (by omega) (alloc_text.trans (by rw [hj]; exact e4)) h6).alloc hX hT r1
    (by simp only [List.length_cons]; omega) (by rw [hj]; exact e4)
  rw [hj] at s1
  have s2 := s1.run hT (valueToR_run (d := w :: d) r2 0) e3 (R := fun _ => True) (fun _ _ _ _ => trivial)
  have s3 := s2.run hT (swapR0R1_run r2) e2 (R := fun _ => True) (fun _ _ _ _ => trivial)
  have s4 := s3.run hT (r0SubR1_run r2) e1 (R := fun _ => True) (fun _ _ _ _ => trivial)
  exact s4.free hT (((r2.append _).append _).append _) h5

theorem not_ok (hT : CodeAt X base T.flatten) {reg : Info → Info} {n need : Nat} {v : Int} {Q : Flags → Prop}
    (hg : ∀ i n, Grows i n (reg i) (n + 1)) (h : Eok X V T base L reg n need (BitVec.ofInt 32 v) Q) (hv : Bounded v) :
    Eok X V T base L (fun i =>
        let i := reg i
        let i := appendText i [testR i]
        let i := appendText i [rNegate i]
        appendText i [testR i]) n need (BitVec.ofInt 32 (truth (v = 0))) (fun f => f.zf = decide (truth (v = 0) = 0)) := by
  intro i d m Q0 h1 h2 h3 h4 h5 h6
  subst h1
  have r1 := (hg i _).regs h2
  have e1 := (prefix_append _).trans h5
  have e2 := (prefix_append _).trans e1
  have e3 := (prefix_append _).trans e2
  have s1 := h i d m Q0 rfl h2 h3 h4 e3 h6
  have s2 := s1.run hT (testR_run r1) e2 (R := fun f => CC.holds f .e = decide (v = 0)) (fun f f' _ hz => by
    show f'.zf = _
    rw [hz, decide_eq_decide]; exact zero_iff hv)
  have s3 := s2.cc hT .e (r1.append _) e1
  rw [truth_word]
  exact s3.run hT (testR_run ((r1.append _).append _)) h5 (fun f f' _ hz => by rw [hz, truth_zero])

theorem compile_ok (hX : X.Ok) (hT : CodeAt X base T.flatten) (hV : Vars X V L ρ) (e : Expr) :
    (∀ n v, Fits ρ false n e → eval ρ e = some v → Eok X V T base L (compile e).reg n (depth e) (BitVec.ofInt 32 v) (Post e v)) ∧
    (∀ n v l, n ≤ 1 → Fits ρ true n e → eval ρ e = some v → Tok X V T base L ((compile e).test l) n (depth e) l v) := by
  have hgr := compile_grows
  induction e with
  | fixed c =>
    have hreg : ∀ n v, eval ρ (.fixed c) = some v →
        Eok X V T base L (compile (.fixed c)).reg n 1 (BitVec.ofInt 32 v) (fun _ => True) := fun n v hv => by
      obtain ⟨t, -, rfl⟩ := Option.map_eq_some_iff.1 hv
      exact leaf_ok hX hT (fun i u d hr => valueToR_run hr c.value)
    exact ⟨fun n v _ hv => hreg n v hv,
      fun n v l hn hf hv => jump_ok hT l (hgr (.fixed c)).reg (hreg n v hv) hn (eval_bounded hV _ hf hv)⟩
  | chr c =>
    have hreg : ∀ n v, eval ρ (.chr c) = some v →
        Eok X V T base L (compile (.chr c)).reg n 1 (BitVec.ofInt 32 v) (fun _ => True) := fun n v hv => by
      have : v = c := by
        simp only [eval] at hv
        split at hv
        · cases hv; rfl
        · cases hv
      subst this
      exact leaf_ok hX hT (fun i u d hr => valueToR_run hr c)
    exact ⟨fun n v _ hv => hreg n v hv,
      fun n v l hn hf hv => jump_ok hT l (hgr (.chr c)).reg (hreg n v hv) hn (eval_bounded hV _ hf hv)⟩
  | ident x =>
    have hreg : ∀ n v, eval ρ (.ident x) = some v →
        Eok X V T base L (compile (.ident x)).reg n 1 (BitVec.ofInt 32 v) (fun _ => True) := fun n v hv => by
      simp only [eval, Option.bind_eq_some_iff] at hv
      obtain ⟨⟨t, o⟩, hf, ho⟩ := hv
      simp only at ho
      subst ho
      obtain ⟨l, g1, g2, g3, g4, g5, g6, g7⟩ := vars_find hV hf
      intro i d m Q0 h1 h2 h3 h4 h5 h6
      subst h1
      have r1 := h2.alloc
      have hl : (allocateRegister i).locals = L := (Ext.alloc i).locals.trans h3
      have e0 : appendText (allocateRegister i) (identToR (allocateRegister i) x) =
          appendText (appendText (allocateRegister i) [localToR (allocateRegister i) l.id]) (convertR0 (allocateRegister i) t) := by
        unfold identToR
        rw [hl, g1, ← g2]
        simp [appendText]
      have h5 : (appendText (allocateRegister i) (identToR (allocateRegister i) x)).text <+: T := h5
      show Reach X V base m (appendText (allocateRegister i) (identToR (allocateRegister i) x)) _ _
      rw [e0] at h5 ⊢
      have e1 := (prefix_append _).trans h5
      obtain ⟨u, s1⟩ := h6.alloc hX hT h2 (by omega) ((prefix_append _).trans e1)
      have s2 := s1.run hT (localToR_run r1 l.id g3 g4 g5) e1 (R := fun _ => True) (fun _ _ _ _ => trivial)
      rw [← g6]
      rcases convertR0_run (X := X) (V := V) (v := V (slot X l.id)) r1 t with ⟨k1, k2⟩ | ⟨ls, k1, k2⟩
      · rw [k2]
        exact s2.text (by rw [k1]; simp [appendText])
      · rw [k1] at h5 ⊢
        exact s2.run hT k2 h5 (fun _ _ _ _ => trivial)
    exact ⟨fun n v _ hv => hreg n v hv,
      fun n v l hn hf hv => jump_ok hT l (hgr (.ident x)).reg (hreg n v hv) hn (eval_bounded hV _ hf hv)⟩
  | un op a ih =>
    have hreg : ∀ n v, Fits ρ false n a → eval ρ (.un op a) = some v →
        Eok X V T base L (compile (.un op a)).reg n (max (depth a) 2) (BitVec.ofInt 32 v) (Post (.un op a) v) := fun n v hf hv => by
      simp only [eval, Option.bind_eq_bind, Option.bind_eq_some_iff] at hv
      obtain ⟨t, ht, x, hx, hv⟩ := hv
      have ha := ih.1 n x hf hx
      cases op with
      | neg =>
        have e : BitVec.ofInt 32 v = 0 - BitVec.ofInt 32 x := by
          rw [arith_word hv, BitVec.ofInt_neg]
          exact (BitVec.zero_sub (BitVec.ofInt 32 x)).symm
        cases hfx : isFixed a with
        | none =>
          rw [e]
          have := neg_ok hX hT (hgr a).reg ha
          have e2 : (compile (.un .neg a)).reg = (fun i =>
            let i := (compile a).reg i
            let i := allocateRegister i
            let i := appendText i ([valueToR i 0] ++ [swapR0R1 i] ++ [r0SubR1 i])
            freeRegister i) := by
            funext i
            simp only [compile, hfx]
          rw [e2]
          exact this
        | some c =>
          have hac : a = .fixed c := by
            cases a <;> first | (simp only [isFixed] at hfx; cases hfx; rfl) | cases hfx
          subst hac
          obtain ⟨t', -, rfl⟩ := Option.map_eq_some_iff.1 hx
          rw [arith_word hv]
          exact (leaf_ok hX hT (fun i u d hr => valueToR_run hr (-(c.value : Int)))).more (by omega)
      | pos => cases hv; exact (ha.more (by omega)).weak fun _ _ => trivial
      | bitNot =>
        cases hv
        rw [ofBits_word]
        exact (Eok.then hT ha (hgr a).reg (fun i d hr => notR_run hr) (fun _ _ _ _ => trivial)).more (by omega)
      | not =>
        cases hv
        exact (not_ok hT (hgr a).reg ha (eval_bounded hV a hf hx)).more (by omega)
    refine ⟨fun n v hf hv => hreg n v hf hv, fun n v l hn hf hv => ?_⟩
    cases op with
    | not => exact jump_flag hT l (hgr (.un .not a)).reg (hreg n v hf hv) hn (.inl ⟨rfl, fun f hf => hf⟩)
    | neg => exact jump_ok hT l (hgr (.un .neg a)).reg (hreg n v hf hv) hn (eval_bounded hV _ hf hv)
    | pos => exact jump_ok hT l (hgr (.un .pos a)).reg (hreg n v hf hv) hn (eval_bounded hV _ hf hv)
    | bitNot => exact jump_ok hT l (hgr (.un .bitNot a)).reg (hreg n v hf hv) hn (eval_bounded hV _ hf hv)
  | bin op a b iha ihb =>
    have hreg : ∀ n v, Fits ρ false n (.bin op a b) → eval ρ (.bin op a b) = some v →
        Eok X V T base L (compile (.bin op a b)).reg n (depth (.bin op a b)) (BitVec.ofInt 32 v) (PostB op v) := fun n v hf hv => by
      obtain ⟨fa, fb, hne, hdiv, hord⟩ := hf
      simp only [eval, Option.bind_eq_bind, Option.bind_eq_some_iff] at hv
      obtain ⟨t, ht, u, hu, x, hx, y, hy, hv⟩ := hv
      have key := bin_ok (fx := isFixed b) (signedA := (leftType ρ a).signed) (unsigned := !(leftType ρ a).signed || !(leftType ρ b).signed)
        hT (hgr a) (hgr b) (iha.1 n x fa hx) (ihb.1 (n + 1) y fb hy)
        (fun c hc => by
          have hbc : b = .fixed c := by
            cases b <;> first | (simp only [isFixed] at hc; cases hc; rfl) | cases hc
          subst hbc
          obtain ⟨t', -, rfl⟩ := Option.map_eq_some_iff.1 hy
          rfl)
        (common_cases t u) hv (eval_bounded hV a fa hx) hne (fun h => hdiv h t u x y ht hu hx hy)
        (fun h => by
          have := hord h t u x y ht hu hx hy
          rwa [show (!(!(leftType ρ a).signed || !(leftType ρ b).signed)) = ((leftType ρ a).signed && (leftType ρ b).signed) by
            cases (leftType ρ a).signed <;> cases (leftType ρ b).signed <;> rfl])
      intro i d m Q0 h1 h2 h3 h4 h5 h6
      have e : (compile (.bin op a b)).reg i = binToRegister op (compile a) (compile b) (isFixed b) i (leftType ρ a).signed
          (!(leftType ρ a).signed || !(leftType ρ b).signed) := by
        rw [← astType_eq hV a, ← astType_eq hV b, ← h3]; rfl
      rw [e] at h5 ⊢
      exact key i d m Q0 h1 h2 h3 h4 h5 h6
    refine ⟨fun n v hf hv => hreg n v hf hv, fun n v l hn hf hv => ?_⟩
    have hr := hreg n v hf hv
    rw [bin_test]
    have hg := (hgr (.bin op a b)).reg
    generalize (compile (.bin op a b)).reg = reg at hr hg
    have hb := eval_bounded hV _ hf hv
    cases op with
    | le => exact jump_flag hT l hg hr hn (.inl ⟨rfl, fun f hf => hf⟩)
    | lt => exact jump_flag hT l hg hr hn (.inl ⟨rfl, fun f hf => hf⟩)
    | ge => exact jump_flag hT l hg hr hn (.inl ⟨rfl, fun f hf => hf⟩)
    | gt => exact jump_flag hT l hg hr hn (.inl ⟨rfl, fun f hf => hf⟩)
    | eq => exact jump_flag hT l hg hr hn (.inr ⟨rfl, fun f hf => hf⟩)
    | ne => exact jump_flag hT l hg hr hn (.inr ⟨rfl, fun f hf => hf⟩)
    | _ => exact jump_ok hT l hg hr hn hb
  | land a b iha ihb =>
    constructor
    · intro n v hf hv i d m Q0 h1 h2 h3 h4 h5 h6
      subst h1
      obtain ⟨fa, fb, hb01⟩ := hf
      simp only [eval, Option.bind_eq_bind, Option.bind_eq_some_iff] at hv
      obtain ⟨x, hx, hv⟩ := hv
      simp only [depth] at h4
      have e1 := (prefix_append _).trans h5
      have e2 := (prefix_append _).trans e1
      have e3 := ((hgr b).reg _ 0).ext.text.trans e2
      have e4 := free_text.trans e3
      have e5 := (prefix_append _).trans e4
      have e6 := (prefix_append _).trans e5
      have e7 := (prefix_append _).trans e6
      have r1 := ((hgr a).reg i _).regs h2
      have s1 := iha.1 d.length x fa hx i d m Q0 rfl h2 h3 (by omega) e7 h6
      have s2 := s1.run hT (testR_run r1) e6 (R := fun f => f.zf = decide (BitVec.ofInt 32 x = 0)) (fun _ _ _ h => h)
      by_cases h0 : x = 0
      · rw [if_pos h0] at hv
        cases hv
        subst h0
        exact (s2.je hT e5 (fun f hf => by rw [hf]; rfl)).label hT h5
      · rw [if_neg h0] at hv
        obtain ⟨y, hy, hv⟩ := Option.bind_eq_some_iff.1 hv
        cases hv
        have hy1 : truth (y ≠ 0) = y := by rcases hb01 x y hx h0 hy with rfl | rfl <;> rfl
        rw [hy1]
        have s3 := s2.je_not hT e5 (fun f hf => by rw [hf]; exact decide_eq_false (fun h => h0 ((zero_iff (eval_bounded hV a fa hx)).1 h)))
        have s4 := s3.run hT (testR_run ((r1.append _).append _)) e4 (R := fun _ => True) (fun _ _ _ h => trivial)
        have r4 := ((r1.append [testR ((compile a).reg i)]).append [jumpZ ("_" ++ ((compile a).reg i).function ++ "_" ++
          numberString ((compile a).reg i).text.length ++ "_and_skip_b")]).append [testR (appendText (appendText ((compile a).reg i)
            [testR ((compile a).reg i)]) [jumpZ ("_" ++ ((compile a).reg i).function ++ "_" ++
              numberString ((compile a).reg i).text.length ++ "_and_skip_b")])]
        have s5 := s4.free hT r4 e3
        have r5 := r4.release
        have s6 := ihb.1 d.length y fb hy _ d m _ rfl r5 ((Ext.free _).locals.trans (((hgr a).reg i 0).ext.locals.trans h3)) (by omega) e2 s5
        exact (s6.run hT (testR_run (((hgr b).reg _ _).regs r5)) e1 (R := fun _ => True) (fun _ _ _ h => trivial)).label
    · intro n v l hn hf hv i d m Q0 h1 h2 h3 h4 h5 h6
      subst h1
      obtain ⟨fa, fb⟩ := hf
      simp only [eval, Option.bind_eq_bind, Option.bind_eq_some_iff] at hv
      obtain ⟨x, hx, hv⟩ := hv
      simp only [depth] at h4
      have e1 := ((hgr b).test l _ 0).ext.text.trans h5
      have s1 := iha.2 d.length x l hn fa hx i d m Q0 rfl h2 h3 (by omega) e1 h6
      by_cases h0 : x = 0
      · rw [if_pos h0] at hv
        cases hv
        exact ⟨fun h => (h rfl).elim, fun _ => s1.2 h0⟩
      · rw [if_neg h0] at hv
        obtain ⟨y, hy, hv⟩ := Option.bind_eq_some_iff.1 hv
        cases hv
        have s2 := ihb.2 d.length y l hn fb hy _ d m _ rfl (((hgr a).test l i _).regs h2) (((hgr a).test l i 0).ext.locals.trans h3)
          (by omega) h5 (s1.1 h0)
        exact ⟨fun h => s2.1 (fun hy => h (by rw [hy]; rfl)), fun h => s2.2 (by
          by_cases hy : y = 0
          · exact hy
          · rw [show truth (y ≠ 0) = 1 by simp [truth, hy]] at h; cases h)⟩
  | lor a b iha ihb =>
    constructor
    · intro n v hf hv i d m Q0 h1 h2 h3 h4 h5 h6
      subst h1
      obtain ⟨fa, fb, ha01, hb01⟩ := hf
      simp only [eval, Option.bind_eq_bind, Option.bind_eq_some_iff] at hv
      obtain ⟨x, hx, hv⟩ := hv
      simp only [depth] at h4
      have e1 := (prefix_append _).trans h5
      have e2 := (prefix_append _).trans e1
      have e3 := ((hgr b).reg _ 0).ext.text.trans e2
      have e4 := free_text.trans e3
      have e5 := (prefix_append _).trans e4
      have e6 := (prefix_append _).trans e5
      have e7 := (prefix_append _).trans e6
      have r1 := ((hgr a).reg i _).regs h2
      have s1 := iha.1 d.length x fa hx i d m Q0 rfl h2 h3 (by omega) e7 h6
      have s2 := s1.run hT (testR_run r1) e6 (R := fun f => f.zf = decide (BitVec.ofInt 32 x = 0)) (fun _ _ _ h => h)
      by_cases h0 : x = 0
      · subst h0
        rw [if_neg (by simp)] at hv
        obtain ⟨y, hy, hv⟩ := Option.bind_eq_some_iff.1 hv
        cases hv
        have hy1 : truth (y ≠ 0) = y := by rcases hb01 y hx hy with rfl | rfl <;> rfl
        rw [hy1]
        have s3 := s2.jne_not hT e5 (fun f hf => by rw [hf]; rfl)
        have s4 := s3.run hT (testR_run ((r1.append _).append _)) e4 (R := fun _ => True) (fun _ _ _ h => trivial)
        have r4 := ((r1.append [testR ((compile a).reg i)]).append [jumpNz ("_" ++ ((compile a).reg i).function ++ "_" ++
          numberString ((compile a).reg i).text.length ++ "_or_skip_b")]).append [testR (appendText (appendText ((compile a).reg i)
            [testR ((compile a).reg i)]) [jumpNz ("_" ++ ((compile a).reg i).function ++ "_" ++
              numberString ((compile a).reg i).text.length ++ "_or_skip_b")])]
        have s5 := s4.free hT r4 e3
        have r5 := r4.release
        have s6 := ihb.1 d.length y fb hy _ d m _ rfl r5 ((Ext.free _).locals.trans (((hgr a).reg i 0).ext.locals.trans h3)) (by omega) e2 s5
        exact (s6.run hT (testR_run (((hgr b).reg _ _).regs r5)) e1 (R := fun _ => True) (fun _ _ _ h => trivial)).label
      · rw [if_pos h0] at hv
        cases hv
        have hx1 : x = 1 := by rcases ha01 x hx with h | h; exact (h0 h).elim; exact h
        subst hx1
        exact (s2.jne hT e5 (fun f hf => by rw [hf]; rfl)).label hT h5
    · intro n v l hn hf hv i d m Q0 h1 h2 h3 h4 h5 h6
      subst h1
      obtain ⟨fa, fb⟩ := hf
      simp only [eval, Option.bind_eq_bind, Option.bind_eq_some_iff] at hv
      obtain ⟨x, hx, hv⟩ := hv
      simp only [depth] at h4
      have e1 := (prefix_append _).trans h5
      have e2 := ((hgr b).test l _ 0).ext.text.trans e1
      have e3 := (prefix_append _).trans e2
      have e4 := (prefix_append _).trans e3
      have r1 := ((hgr a).test (l ++ "_b_" ++ numberString i.text.length) i _).regs h2
      have s1 := iha.2 d.length x (l ++ "_b_" ++ numberString i.text.length) hn fa hx i d m Q0 rfl h2 h3 (by omega) e4 h6
      by_cases h0 : x = 0
      · rw [if_neg (by simp [h0])] at hv
        obtain ⟨y, hy, hv⟩ := Option.bind_eq_some_iff.1 hv
        cases hv
        have s2 := (s1.2 h0).label hT e2
        have s3 := ihb.2 d.length y l hn fb hy _ d m _ rfl ((r1.append _).append _) (((hgr a).test _ i 0).ext.locals.trans h3)
          (by omega) e1 s2
        exact ⟨fun h => (s3.1 (fun hy => h (by rw [hy]; rfl))).label, fun h => s3.2 (by
          by_cases hy : y = 0
          · exact hy
          · rw [show truth (y ≠ 0) = 1 by simp [truth, hy]] at h; cases h)⟩
      · rw [if_pos h0] at hv
        cases hv
        exact ⟨fun _ => ((s1.1 h0).jmp hT e3).label hT h5, fun h => (by cases h)⟩
  | cond a b c iha ihb ihc =>
    have hreg : ∀ n v, Fits ρ false n (.cond a b c) → eval ρ (.cond a b c) = some v →
        Eok X V T base L (compile (.cond a b c)).reg n (depth (.cond a b c)) (BitVec.ofInt 32 v) (fun _ => True) := by
      intro n v hf hv i d m Q0 h1 h2 h3 h4 h5 h6
      subst h1
      obtain ⟨hn, fa, fb, fc⟩ := hf
      simp only [eval, Option.bind_eq_bind, Option.bind_eq_some_iff] at hv
      obtain ⟨t, ht, u, hu, x, hx, y, hy, hv⟩ := hv
      cases hv
      rw [ofInt_wrap (common_cases t u)]
      simp only [depth] at h4
      have e1 := alloc_text.trans h5
      have e2 := (prefix_append _).trans e1
      have e3 := free_text.trans e2
      have e4 := ((hgr c).reg _ 0).ext.text.trans e3
      have e5 := (prefix_append _).trans e4
      have e6 := (prefix_append _).trans e5
      have e7 := free_text.trans e6
      have e8 := ((hgr b).reg _ 0).ext.text.trans e7
      have g1 := (hgr a).test ("_" ++ i.function ++ "_" ++ numberString i.text.length ++ "_" ++ "else") i
      have r1 := (g1 _).regs h2
      have l1 := (g1 0).ext.locals.trans h3
      have r2 := ((hgr b).reg _ _).regs r1
      have r3 := r2.release
      have r5 := (r3.append [jump ("_" ++ i.function ++ "_" ++ numberString i.text.length ++ "_" ++ "break")]).append
        [[.label ("_" ++ i.function ++ "_" ++ numberString i.text.length ++ "_" ++ "else")]]
      have r6 := ((hgr c).reg _ _).regs r5
      have r8 := r6.release.append [[.label ("_" ++ i.function ++ "_" ++ numberString i.text.length ++ "_" ++ "break")]]
      have s1 := iha.2 d.length x ("_" ++ i.function ++ "_" ++ numberString i.text.length ++ "_" ++ "else") hn fa hx i d m Q0 rfl h2 h3
        (by omega) e8 h6
      by_cases h0 : x = 0
      · rw [if_neg (by simp [h0])] at hy
        have s2 := (s1.2 h0).label hT e4
        have s3 := ihc.1 d.length y fc hy _ d m _ rfl r5 ((Ext.free _).locals.trans (((hgr b).reg _ 0).ext.locals.trans l1)) (by omega) e3 s2
        exact ((s3.text (free_same r6 hn)).label.weak fun _ _ => trivial).text (alloc_same r8 hn)
      · rw [if_pos h0] at hy
        have s2 := ihb.1 d.length y fb hy _ d m _ rfl r1 l1 (by omega) e7 (s1.1 h0)
        exact (((s2.text (free_same r2 hn)).jmp hT e5).label hT e1).text (alloc_same r8 hn)
    exact ⟨fun n v hf hv => hreg n v hf hv,
      fun n v l hn hf hv => jump_ok hT l (hgr (.cond a b c)).reg (hreg n v hf hv) hn (eval_bounded hV _ hf hv)⟩
  | cast t a ih =>
    have hreg : ∀ n v, Fits ρ false n (.cast t a) → eval ρ (.cast t a) = some v →
        Eok X V T base L (compile (.cast t a)).reg n (depth a) (BitVec.ofInt 32 v) (fun _ => True) := by
      intro n v hf hv
      obtain ⟨ht, fa⟩ := hf
      simp only [eval, Option.bind_eq_bind, Option.bind_eq_some_iff] at hv
      obtain ⟨x, hx, hv⟩ := hv
      cases hv
      rw [← conv_ofInt ht]
      exact (convert_ok hT t (ih.1 n x fa hx) (hgr a).reg).weak fun _ _ => trivial
    exact ⟨fun n v hf hv => hreg n v hf hv,
      fun n v l hn hf hv => jump_ok hT l (hgr (.cast t a)).reg (hreg n v hf hv) hn (eval_bounded hV _ hf hv)⟩

end

end Mes.X86
