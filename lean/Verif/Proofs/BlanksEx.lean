import Verif.Proofs.Blanks
/-
Two runs of the compiler: expressions.
-/
namespace Blang.Blanks
open Blang Blang.Spec Blang.Props

section
variable {D : Prop} {G : List Char → Prop} {x y : List Char}

/-- both texts go on between two tokens -/
abbrev Nr (D : Prop) (G : List Char → Prop) {α : Type} : α → List Char → List Char → Prop := fun _ x y => Near D G (.code []) x y

abbrev RR (D : Prop) (G : List Char → Prop) {β ρ : Type} : Iter β ρ → List Char → List Char → Prop := Round (Nr D G) (Nr D G)

/-- the recursive calls -/
def RecTw (D : Prop) (G : List Char → Prop) (rec rec' : Nat → P Val) : Prop :=
  ∀ lvl x y, Near D G (.code []) x y → TwP D (rec lvl) (rec' lvl) x y (Nr D G)

variable {rec rec' : Nat → P Val}

theorem tw_rec {β : Type} {lvl : Nat} {k k' : Val → P β} {Q : β → List Char → List Char → Prop} (hr : RecTw D G rec rec') (h : Near D G (.code []) x y)
    (h1 : ∀ v x' y', Near D G (.code []) x' y' → TwP D (k v) (k' v) x' y' Q) : TwP D (rec lvl >>= k) (rec' lvl >>= k') x y Q :=
  tw_bind (hr lvl x y h) h1

theorem tw_stop {left : LV} (h : Near D G (.code []) x y) : TwP D (stop left) (stop left) x y (RR D G) := tw_bd fun _ => tw_pure h

theorem tw_noOp {ch : Char} {left : LV} (h : Near D G (.code []) (ch :: x) (ch :: y)) : TwP D (noOp ch left) (noOp ch left) x y (RR D G) := unP (tw_stop h)

/-- a blank is no operator -/
theorem tw_noOp2 {ch ch' : Char} {left : LV} (h : Near D G (.code []) (ch :: x) (ch' :: y)) : TwP D (noOp ch left) (noOp ch' left) x y (RR D G) := unP (tw_stop h)

theorem tw_binary (hr : RecTw D G rec rec') {left : LV} {rl : Nat} {o : Op} (h : Near D G (.code []) x y) :
    TwP D (binary rec left rl o) (binary rec' left rl o) x y (RR D G) :=
  tw_bd fun _ => tw_rec hr h fun _ _ _ h1 => tw_bd fun _ => tw_pure h1

theorem tw_ternary (hG : Ends G) (hr : RecTw D G rec rec') {left : LV} (h : Near D G (.code []) x y) :
    TwP D (ternary rec left) (ternary rec' left) x y (RR D G) := by
  refine tw_bd fun _ => tw_bd fun _ => tw_bd fun _ => tw_bd fun _ => tw_bd fun _ => tw_bd fun _ => tw_bd fun _ => tw_bd fun _ => ?_
  refine tw_rec hr h fun _ x1 y1 h1 => tw_bd fun _ => tw_bd fun _ => wsP hG (.inl h1) fun x2 y2 h2 _ => ?_
  refine exP hG h2 (by decide) fun x3 y3 h3 => tw_bd fun _ => tw_rec hr h3 fun _ x4 y4 h4 => ?_
  exact tw_bd fun _ => tw_bd fun _ => tw_bd fun _ => tw_bd fun _ => tw_pure h4

/-- what is read behind `=` -/
def Behind (D : Prop) (G : List Char → Prop) (m : Mode) : RC → List Char → List Char → Prop
  | .ch c, x, y => Near D G m (c :: x) (c :: y)
  | _, x, y => x = [] ∧ y = []

theorem tw_compoundOp (hG : Ends G) {c2 : RC} (h : Behind D G (.code ['=']) c2 x y) (hc : c2 ≠ .ch '=') : TwP D (compoundOp c2) (compoundOp c2) x y (Nr D G) := by
  cases c2 with
  | eof => obtain ⟨rfl, rfl⟩ := h; exact tw_pure (.same _)
  | io => obtain ⟨rfl, rfl⟩ := h; exact tw_pure (.same _)
  | ch c =>
    have h : Near D G (.code ['=']) (c :: x) (c :: y) := h
    have hc : c ≠ '=' := fun e => hc (by rw [e])
    refine tw_ite (fun e => tw_pure ?_) fun h1 => tw_ite (fun e => tw_pure ?_) fun h2 => tw_ite (fun e => tw_pure ?_) fun h3 =>
      tw_ite (fun e => tw_pure ?_) fun h4 => tw_ite (fun e => tw_pure ?_) fun h5 => tw_ite (fun e => tw_pure ?_) fun h6 =>
      tw_ite (fun e => tw_pure ?_) fun h7 => tw_ite (fun e => ?_) fun h8 => tw_ite (fun e => ?_) fun h9 => tw_ite (fun e => ?_) fun h10 => ?_
    iterate 7 subst e; exact Near.whole hG h (by decide) (by decide)
    · subst e
      have h' : Near D G (.code ['=', '<']) x y := Near.solid hG h (by decide)
      refine rdP h' (fun c3 c3' x' y' _ _ hb hb' _ hn => by blanks hb hb'; exact unP (tw_pure (hn.forget hb))) (fun c3 x' y' _ hn => ?_) (tw_pure (.same _)) (tw_pure (.same _))
      refine tw_ite (fun e => tw_pure ?_) fun k1 => tw_ite (fun e => tw_pure ?_) fun k2 => unP (tw_pure ?_)
      · subst e; exact Near.whole hG hn (by decide) (by decide)
      · subst e; exact Near.whole hG hn (by decide) (by decide)
      · refine hn.reset fun d r hd => ?_
        cases hd; simp [symbols, k1, k2]
    · subst e
      have h' : Near D G (.code ['=', '>']) x y := Near.solid hG h (by decide)
      refine rdP h' (fun c3 c3' x' y' _ _ hb hb' _ hn => by blanks hb hb'; exact unP (tw_pure (hn.forget hb))) (fun c3 x' y' _ hn => ?_) (tw_pure (.same _)) (tw_pure (.same _))
      refine tw_ite (fun e => tw_pure ?_) fun k1 => tw_ite (fun e => tw_pure ?_) fun k2 => unP (tw_pure ?_)
      · subst e; exact Near.whole hG hn (by decide) (by decide)
      · subst e; exact Near.whole hG hn (by decide) (by decide)
      · refine hn.reset fun d r hd => ?_
        cases hd; simp [symbols, k1, k2]
    · subst e
      have h' : Near D G (.code ['!']) x y := Near.solid hG h (by decide)
      refine rdP h' (fun c3 c3' x' y' ex _ hb hb' _ hn => ?_) (fun c3 x' y' ex hn => ?_) (unP (tw_pure (.same _))) (unP (tw_pure (.same _)))
      · blanks hb hb'
        obtain ⟨rfl, rfl⟩ := ex
        exact unP (unP (tw_pure (h.reset fun d r hd => by cases hd; simp [symbols])))
      refine tw_ite (fun e => tw_pure ?_) fun k1 => unP (unP (tw_pure ?_))
      · subst e; exact Near.whole hG hn (by decide) (by decide)
      · obtain ⟨rfl, rfl⟩ := ex
        exact h.reset fun d r hd => by cases hd; simp [symbols]
    · refine unP (tw_pure (h.reset fun d r hd => ?_))
      cases hd; simp [symbols, hc, h1, h2, h3, h4, h5, h6, h7, h8, h9, h10]

/-- a blank behind `=` -/
theorem tw_compoundB {c c' : Char} (hb : Blank c) (hb' : Blank c') (h : Near D G (.code []) (c :: x) (c' :: y)) :
    TwP D (compoundOp (.ch c)) (compoundOp (.ch c')) x y (Nr D G) := by
  unfold compoundOp
  dsimp only
  blanks hb hb'
  exact unP (tw_pure h)

theorem tw_assignB (hr : RecTw D G rec rec') {left : LV} {c c' : Char} (hb : Blank c) (hb' : Blank c') (h : Near D G (.code []) (c :: x) (c' :: y)) :
    TwP D (assignRest rec left (.ch c)) (assignRest rec' left (.ch c')) x y (RR D G) := by
  refine tw_ite (fun _ => tw_fail) fun _ => ?_
  refine tw_bind (tw_compoundB hb hb' h) fun o x1 y1 h1 => ?_
  exact tw_rec hr h1 fun _ x2 y2 h2 => tw_bd fun _ => tw_pure h2

theorem tw_assignRest (hG : Ends G) (hr : RecTw D G rec rec') {left : LV} {c2 : RC} (h : Behind D G (.code ['=']) c2 x y) (hc : c2 ≠ .ch '=') :
    TwP D (assignRest rec left c2) (assignRest rec' left c2) x y (RR D G) := by
  refine tw_ite (fun _ => tw_fail) fun _ => ?_
  refine tw_bind (tw_compoundOp hG h hc) fun o x1 y1 h1 => ?_
  exact tw_rec hr h1 fun _ x2 y2 h2 => tw_bd fun _ => tw_pure h2

theorem tw_assignment (hG : Ends G) (hr : RecTw D G rec rec') {left : LV} (h : Near D G (.code ['=']) x y) (hq : ∀ r, x = '=' :: r → ∃ r', r = '=' :: r') :
    TwP D (assignment rec left) (assignment rec' left) x y (RR D G) := by
  refine rdP h (fun c c' x' y' _ _ hb hb' _ hn => ?_) (fun c x' y' ex hn => ?_) ?_ ?_
  · refine tw_not (fun e => blank_ne hb (d := '=') (by decide) (by cases e; rfl)) (fun e => blank_ne hb' (d := '=') (by decide) (by cases e; rfl)) ?_
    exact tw_assignB hr hb hb' (hn.forget hb)
  · refine tw_ite (fun e => ?_) (fun e => tw_assignRest hG hr hn e)
    cases e
    obtain ⟨rfl, rfl⟩ := ex
    obtain ⟨r', rfl⟩ := hq _ rfl
    have h1 : Near D G (.code ['=', '=']) ('=' :: r') y' := Near.solid hG hn (by decide)
    obtain ⟨y3, rfl⟩ := h1.head (by decide)
    refine rdC (tw_ite (fun e => ?_) (fun e => absurd rfl e))
    exact tw_ite (fun _ => tw_fail) fun _ => tw_rec hr (Near.whole hG h1 (by decide) (by decide)) fun _ x2 y2 h2 => tw_bd fun _ => tw_pure h2
  · exact tw_ite (fun e => by cases e) (fun e => tw_assignRest hG hr ⟨rfl, rfl⟩ e)
  · exact tw_ite (fun e => by cases e) (fun e => tw_assignRest hG hr ⟨rfl, rfl⟩ e)

theorem tw_afterEq (hG : Ends G) (hr : RecTw D G rec rec') {level : Nat} {left : LV} (h : Near D G (.code []) ('=' :: x) ('=' :: y))
    (hq : 14 ≤ level → ∀ r, x = '=' :: r → ∃ r', r = '=' :: r') : TwP D (afterEq rec level left) (afterEq rec' level left) x y (RR D G) :=
  tw_ite (fun hl => tw_assignment hG hr (Near.solid hG h (by decide)) (hq hl)) fun _ => tw_noOp h

theorem tw_handleEq (hG : Ends G) (hr : RecTw D G rec rec') {level : Nat} {left : LV} (h : Near D G (.code []) ('=' :: x) ('=' :: y)) :
    TwP D (handleEq rec level left) (handleEq rec' level left) x y (RR D G) := by
  have h1 : Near D G (.code ['=']) x y := Near.solid hG h (by decide)
  refine tw_ite (fun hl => ?_) fun hl => tw_afterEq hG hr h fun h' => by omega
  refine rdP h1 (fun c c' x2 y2 ex _ hb hb' _ hn => ?_) (fun c2 x2 y2 ex hn => ?_) (tw_afterEq hG hr (.same _) (by simp)) (tw_afterEq hG hr (.same _) (by simp))
  · obtain ⟨rfl, rfl⟩ := ex
    blanks hb hb'
    exact unP (tw_afterEq hG hr h fun _ r er => by cases er; exact absurd hb (by decide))
  obtain ⟨rfl, rfl⟩ := ex
  refine tw_ite (fun e => ?_) fun e => unP (tw_afterEq hG hr h fun _ r er => by cases er; exact absurd rfl e)
  subst e
  have h2 : Near D G (.code ['=', '=']) x2 y2 := Near.solid hG hn (by decide)
  refine rdP h2 (fun c c' x3 y3 _ _ hb hb' _ hn => by blanks hb hb'; exact unP (tw_binary hr (hn.forget hb))) (fun c3 x3 y3 ex3 hn3 => ?_) (tw_binary hr (.same _)) (tw_binary hr (.same _))
  obtain ⟨rfl, rfl⟩ := ex3
  refine tw_ite (fun e => ?_) fun e => unP (tw_binary hr (hn3.reset fun d r hd => by cases hd; simp [symbols, e]))
  subst e
  exact unP (unP (tw_afterEq hG hr h fun _ r er => by cases er; exact ⟨_, rfl⟩))

theorem tw_handleLt (hG : Ends G) (hr : RecTw D G rec rec') {left : LV} (h : Near D G (.code []) ('<' :: x) ('<' :: y)) :
    TwP D (handleLt rec left) (handleLt rec' left) x y (RR D G) := by
  have h1 : Near D G (.code ['<']) x y := Near.solid hG h (by decide)
  refine tw_bd fun _ => rdP h1 (fun c c' x3 y3 _ _ hb hb' _ hn => by blanks hb hb'; exact unP (tw_binary hr (hn.forget hb))) (fun c2 x2 y2 ex hn => ?_) (tw_binary hr (.same _)) (tw_binary hr (.same _))
  refine tw_ite (fun e => ?_) fun k1 => tw_ite (fun e => ?_) fun k2 => unP (tw_binary hr (hn.reset fun d r hd => by cases hd; simp [symbols, k1, k2]))
  · subst e; exact tw_binary hr (Near.whole hG hn (by decide) (by decide))
  · subst e; exact tw_binary hr (Near.whole hG hn (by decide) (by decide))

theorem tw_handleGt (hG : Ends G) (hr : RecTw D G rec rec') {left : LV} (h : Near D G (.code []) ('>' :: x) ('>' :: y)) :
    TwP D (handleGt rec left) (handleGt rec' left) x y (RR D G) := by
  have h1 : Near D G (.code ['>']) x y := Near.solid hG h (by decide)
  refine tw_bd fun _ => rdP h1 (fun c c' x3 y3 _ _ hb hb' _ hn => by blanks hb hb'; exact unP (tw_binary hr (hn.forget hb))) (fun c2 x2 y2 ex hn => ?_) (tw_binary hr (.same _)) (tw_binary hr (.same _))
  refine tw_ite (fun e => ?_) fun k1 => tw_ite (fun e => ?_) fun k2 => unP (tw_binary hr (hn.reset fun d r hd => by cases hd; simp [symbols, k1, k2]))
  · subst e; exact tw_binary hr (Near.whole hG hn (by decide) (by decide))
  · subst e; exact tw_binary hr (Near.whole hG hn (by decide) (by decide))

theorem tw_handleAdd (hG : Ends G) (hr : RecTw D G rec rec') {ch : Char} (hch : ch = '+' ∨ ch = '-') {left : LV}
    (h : Near D G (.code []) (ch :: x) (ch :: y)) : TwP D (handleAdd rec ch left) (handleAdd rec' ch left) x y (RR D G) := by
  have h1 : Near D G (.code [ch]) x y := by
    rcases hch with rfl | rfl <;> exact Near.solid hG h (by decide)
  have hch' : ¬ Blank ch := by rcases hch with rfl | rfl <;> decide
  refine rdP h1 (fun c c' x3 y3 _ _ hb hb' _ hn => ?_) (fun c2 x2 y2 ex hn => ?_) (tw_binary hr (.same _)) (tw_binary hr (.same _))
  · refine tw_not (blank_ne hb hch') (blank_ne hb' hch') ?_
    unfold unreadNZ
    rw [if_pos (blank_ne hb (by decide)), if_pos (blank_ne hb' (by decide))]
    exact unP (tw_binary hr (hn.forget hb))
  obtain ⟨rfl, rfl⟩ := ex
  refine tw_ite (fun e => ?_) fun k1 => ?_
  · subst e; exact unP (unP (tw_stop h))
  · have h2 : Near D G (.code []) (c2 :: x2) (c2 :: y2) := hn.reset fun d r hd => by
      cases hd; rcases hch with rfl | rfl <;> simp [symbols, k1]
    unfold unreadNZ
    by_cases h0 : c2 = '\x00'
    · subst h0
      refine tw_bind (R := fun _ x' y' => x' = x2 ∧ y' = y2) (tw_lx (tw_pure ⟨rfl, rfl⟩)) ?_
      rintro _ _ _ ⟨rfl, rfl⟩
      exact tw_binary hr (Near.plain hG h2 (plain_of (by decide)) (by decide))
    · rw [if_pos h0]
      exact unP (tw_binary hr h2)

theorem tw_exprBody (hG : Ends G) (hr : RecTw D G rec rec') (level : Nat) (left : LV) (h : Near D G (.code []) x y) :
    TwP D (exprBody rec level left) (exprBody rec' level left) x y (RR D G) := by
  refine wsP hG (.inl h) fun x1 y1 h1 hs => rdP h1 (solidB hs) (fun ch x2 y2 ex hn => ?_) (tw_stop (.same _)) tw_throw
  obtain ⟨rfl, rfl⟩ := ex
  refine tw_ite (fun e => ?_) fun _ => tw_ite (fun e => ?_) fun _ => tw_ite (fun e => ?_) fun _ => tw_ite (fun e => ?_) fun _ =>
    tw_ite (fun e => ?_) fun _ => tw_ite (fun e => ?_) fun _ => tw_ite (fun e => ?_) fun _ => tw_ite (fun e => ?_) fun _ =>
    tw_ite (fun e => ?_) fun _ => tw_ite (fun e => ?_) fun _ => tw_ite (fun e => ?_) fun _ => tw_noOp hn
  · obtain ⟨_, rfl⟩ := e; exact tw_ternary hG hr (Near.own hG hn (by decide))
  · subst e; exact tw_handleEq hG hr hn
  · obtain ⟨_, rfl⟩ := e; exact tw_binary hr (Near.own hG hn (by decide))
  · obtain ⟨_, rfl⟩ := e; exact tw_binary hr (Near.own hG hn (by decide))
  · obtain ⟨_, rfl⟩ := e
    have h2 : Near D G (.code ['!']) x2 y2 := Near.solid hG hn (by decide)
    refine rdP h2 (fun c c' x3 y3 _ hD hb hb' _ hn => tw_yes (blank_ne hb (by decide)) (blank_ne hb' (by decide)) (tw_fails hD)) (fun c2 x3 y3 _ hn3 => tw_ite (fun _ => tw_fail) fun e => ?_) tw_fail tw_fail
    have e : c2 = '=' := Classical.not_not.1 e
    subst e
    exact tw_binary hr (Near.whole hG hn3 (by decide) (by decide))
  · obtain ⟨_, rfl⟩ := e; exact tw_handleLt hG hr hn
  · obtain ⟨_, rfl⟩ := e; exact tw_handleGt hG hr hn
  · exact tw_handleAdd hG hr e.2 hn
  · obtain ⟨_, rfl⟩ := e; exact tw_binary hr (Near.own hG hn (by decide))
  · obtain ⟨_, rfl⟩ := e
    have h2 : Near D G (.code ['/']) x2 y2 := Near.solid hG hn (by decide)
    refine tw_binary hr (h2.reset fun d r hd => ?_)
    subst hd
    have hd : d ≠ '*' := fun e => (startsSolid_cons.1 hs).2 ⟨rfl, by rw [e]; rfl⟩
    simp [symbols, hd]
  · obtain ⟨_, rfl⟩ := e; exact tw_binary hr (Near.own hG hn (by decide))

/-! ### operands -/

theorem tw_unreadRC {r : RC} {β : Type} {k k' : Unit → P β} {Q : β → List Char → List Char → Prop} (h : Behind D G (.code []) r x y)
    (hk : ∀ x' y', Near D G (.code []) x' y' → TwP D (k ()) (k' ()) x' y' Q) : TwP D (lx (unreadRC r) >>= k) (lx (unreadRC r) >>= k') x y Q := by
  cases r with
  | ch c => exact unP (hk _ _ h)
  | eof => obtain ⟨rfl, rfl⟩ := h; exact tw_bind (tw_lx (tw_pure (Q := Nr D G) (.same _))) fun _ x' y' h' => hk _ _ h'
  | io => obtain ⟨rfl, rfl⟩ := h; exact tw_bind (tw_lx (tw_pure (Q := Nr D G) (.same _))) fun _ x' y' h' => hk _ _ h'

theorem rdB {β : Type} {k k' : RC → P β} {Q : β → List Char → List Char → Prop} {m : Mode} (h : Near D G m x y)
    (hB : Blanks2 D G m x y fun c c' x' y' => TwP D (k (.ch c)) (k' (.ch c')) x' y' Q) (hk : ∀ r x' y', Behind D G m r x' y' → TwP D (k r) (k' r) x' y' Q) : TwP D (lx readChar >>= k) (lx readChar >>= k') x y Q :=
  rdP h hB (fun _ _ _ _ hn => hk _ _ _ hn) (hk .eof _ _ ⟨rfl, rfl⟩) (hk .io _ _ ⟨rfl, rfl⟩)

theorem tw_funcValue (hG : Ends G) {name : Name} (h : Near D G (.code []) x y) : TwP D (funcValue name) (funcValue name) x y (Nr D G) := by
  refine wsP hG (.inl h) fun x1 y1 h1 hs => rdB h1 (solidB hs) fun r x2 y2 h2 => tw_unreadRC h2 fun x3 y3 h3 => ?_
  refine tw_ite (fun _ => tw_fail) fun _ => tw_get fun t c => ?_
  dsimp only
  cases findFuncByName c name with
  | some fn => exact tw_bd fun _ => tw_pure h3
  | none =>
    refine tw_bd fun o => ?_
    cases o with
    | some fn => exact tw_bd fun _ => tw_pure h3
    | none => exact tw_fail

theorem tw_callee {name : Name} (h : Near D G (.code []) x y) : TwP D (callee name) (callee name) x y (Nr D G) := by
  refine tw_get fun t c => ?_
  dsimp only
  cases findFuncByName c name with
  | some fn => exact tw_pure h
  | none =>
    dsimp only
    cases lookup name c.ctx with
    | some g => exact tw_pure h
    | none =>
      refine tw_bd fun o => ?_
      cases o with
      | some fn => exact tw_pure h
      | none => exact tw_fail

theorem tw_identExpr (hG : Ends G) (h : Near D G (.code []) x y) : TwP D identExpr identExpr x y (Nr D G) := by
  refine tw_bind (tw_lx (tw_identifier hG (.inl h))) fun name x0 y0 h0 => ?_
  refine wsP hG (.inl h0.1) fun x1 y1 h1 hs => rdB h1 (solidB hs) fun r x2 y2 h2 => tw_unreadRC h2 fun x3 y3 h3 => ?_
  refine tw_ite (fun _ => tw_callee h3) fun _ => tw_bd fun o => ?_
  cases o with
  | some a => exact tw_pure h3
  | none => exact tw_funcValue hG h3

theorem tw_parsePrimary (hG : Ends G) (hr : RecTw D G rec rec') (h : Near D G (.code []) x y) :
    TwP D (parsePrimary rec) (parsePrimary rec') x y (Nr D G) := by
  refine wsP hG (.inl h) fun x1 y1 h1 hs => rdP h1 (solidB hs) (fun ch x2 y2 ex hn => ?_) tw_fail tw_throw
  refine tw_ite (fun e => ?_) fun _ => tw_ite (fun e => ?_) fun _ => tw_ite (fun e => ?_) fun _ => tw_ite (fun e => ?_) fun _ => tw_ite (fun e => ?_) fun _ => tw_fail
  · subst e; exact tw_bind (tw_lx (tw_character hG hn)) fun _ x3 y3 h3 => tw_pure h3
  · subst e; exact tw_bind (tw_lx (tw_stringLit hG hn)) fun _ x3 y3 h3 => tw_bd fun _ => tw_pure h3
  · subst e
    exact tw_rec hr (Near.own hG hn (by decide)) fun _ x3 y3 h3 => exP hG h3 (by decide) fun x4 y4 h4 => tw_pure h4
  · exact unP (tw_bind (tw_lx (tw_number hG (.inl hn))) fun _ x3 y3 h3 => tw_pure h3)
  · exact unP (tw_identExpr hG hn)

theorem tw_argsBody (hG : Ends G) (hr : RecTw D G rec rec') (args : List Val) (h : Near D G (.code []) x y) :
    TwP D (argsBody rec args) (argsBody rec' args) x y (RR D G) := by
  have rest : ∀ x y, Near D G (.code []) x y → TwP D (do
      let arg ← rec 15
      lx whitespace
      let ch ← lx readOrErr
      if ch = ')' then pure (.done (args ++ [arg]))
      else if ch ≠ ',' then fail ("unexpected character '" ++ String.singleton ch ++ "', expect ')'")
      else pure (.next (args ++ [arg]))) (do
      let arg ← rec' 15
      lx whitespace
      let ch ← lx readOrErr
      if ch = ')' then pure (.done (args ++ [arg]))
      else if ch ≠ ',' then fail ("unexpected character '" ++ String.singleton ch ++ "', expect ')'")
      else pure (.next (args ++ [arg]))) x y (RR D G) := by
    intro x y hn
    refine tw_rec hr hn fun _ x2 y2 h2 => wsP hG (.inl h2) fun x3 y3 h3 hs => ?_
    refine reP h3 (solidB hs) fun ch x4 y4 _ h4 => tw_ite (fun e => ?_) fun _ => tw_ite (fun _ => tw_fail) fun e => ?_
    · subst e; exact tw_pure (Near.own hG h4 (by decide))
    · have e : ch = ',' := Classical.not_not.1 e
      subst e; exact tw_pure (Near.own hG h4 (by decide))
  refine reP h (fun c c' x1 y1 _ _ hb hb' _ hn => ?_) fun ch x1 y1 _ hn => tw_ite (fun e => ?_) fun _ => unP (rest _ _ hn)
  · refine tw_not (blank_ne hb (by decide)) (blank_ne hb' (by decide)) (unP (rest _ _ hn))
  · subst e; exact tw_pure (Near.own hG hn (by decide))

theorem tw_postfixOp (hG : Ends G) {ch : Char} (hch : ch = '+' ∨ ch = '-') {o : BinOp} {v : LV} (h : Near D G (.code []) (ch :: x) (ch :: y)) :
    TwP D (postfixOp ch o v) (postfixOp ch o v) x y (RR D G) := by
  have h1 : Near D G (.code [ch]) x y := by
    rcases hch with rfl | rfl <;> exact Near.solid hG h (by decide)
  have hch' : ¬ Blank ch := by rcases hch with rfl | rfl <;> decide
  refine rdP h1 (fun c c' x2 y2 ex _ hb hb' _ hn => ?_) (fun c2 x2 y2 ex hn => ?_) (unP (tw_pure (.same _))) (unP (tw_pure (.same _)))
  · obtain ⟨rfl, rfl⟩ := ex
    exact tw_yes (blank_ne hb hch') (blank_ne hb' hch') (unP (unP (tw_pure h)))
  obtain ⟨rfl, rfl⟩ := ex
  refine tw_ite (fun _ => unP (unP (tw_pure h))) fun e => tw_ite (fun _ => tw_fail) fun _ => tw_bd fun _ => tw_pure ?_
  have e : c2 = ch := Classical.not_not.1 e
  subst e
  rcases hch with rfl | rfl <;> exact Near.whole hG hn (by decide) (by decide)

theorem tw_postfixBody (hG : Ends G) (hr : RecTw D G rec rec') (n n' : Nat) (v : LV) (h : Near D G (.code []) x y) :
    TwP D (postfixBody rec n v) (postfixBody rec' n' v) x y (RR D G) := by
  refine wsP hG (.inl h) fun x1 y1 h1 hs => rdP h1 (solidB hs) (fun ch x2 y2 ex hn => ?_) (tw_pure (.same _)) tw_throw
  refine tw_ite (fun e => ?_) fun _ => tw_ite (fun e => ?_) fun _ => tw_ite (fun e => ?_) fun _ => tw_ite (fun e => ?_) fun _ => unP (tw_pure hn)
  · subst e
    refine tw_bd fun _ => tw_bd fun _ => tw_rec hr (Near.own hG hn (by decide)) fun _ x3 y3 h3 => exP hG h3 (by decide) fun x4 y4 h4 => ?_
    exact tw_bd fun _ => tw_pure h4
  · subst e
    refine tw_bd fun _ => tw_bind (tw_loop (I := Nr D G) (Q := Nr D G) (fun b x y h => tw_argsBody hG hr b h) n n' [] x2 y2 (Near.own hG hn (by decide))) fun _ x3 y3 h3 => ?_
    exact tw_bd fun _ => tw_pure h3
  · subst e; exact tw_postfixOp hG (.inl rfl) hn
  · subst e; exact tw_postfixOp hG (.inr rfl) hn

theorem tw_parsePostfix (hG : Ends G) (hr : RecTw D G rec rec') (n n' : Nat) (h : Near D G (.code []) x y) :
    TwP D (parsePostfix rec n) (parsePostfix rec' n') x y (Nr D G) :=
  tw_bind (tw_parsePrimary hG hr h) fun v x1 y1 h1 => tw_loop (I := Nr D G) (Q := Nr D G) (fun b x y h => tw_postfixBody hG hr n n' b h) n n' v x1 y1 h1

/-- no operand begins with `=` -/
theorem tw_stuck : ∀ (n n' : Nat) (x y : List Char) (Q : LV → List Char → List Char → Prop),
    TwP D (parseUnary rec n) (parseUnary rec' n') ('=' :: x) ('=' :: y) Q
  | 0, _, _, _, _ => tw_fuelL
  | _ + 1, 0, _, _, _ => tw_fuelR
  | n + 1, n' + 1, x, y, Q => by
    refine wsC (by decide) (by decide) (rdC ?_)
    iterate 5 refine tw_ite (fun e => absurd e (by decide)) fun _ => ?_
    refine unP (tw_bind (R := fun _ _ _ => False) ?_ fun _ _ _ h => h.elim)
    refine wsC (by decide) (by decide) (rdC ?_)
    iterate 5 refine tw_ite (fun e => absurd e (by decide)) fun _ => ?_
    exact tw_fail

theorem tw_parseUnary (hG : Ends G) (hr : RecTw D G rec rec') : ∀ (n n' : Nat) (x y : List Char), Near D G (.code []) x y →
    TwP D (parseUnary rec n) (parseUnary rec' n') x y (Nr D G)
  | 0, _, _, _, _ => tw_fuelL
  | _ + 1, 0, _, _, _ => tw_fuelR
  | n + 1, n' + 1, x, y, h => by
    refine wsP hG (.inl h) fun x1 y1 h1 hs => rdP h1 (solidB hs) (fun ch x2 y2 ex hn => ?_) tw_fail tw_throw
    refine tw_ite (fun e => ?_) fun _ => tw_ite (fun e => ?_) fun _ => tw_ite (fun e => ?_) fun _ => tw_ite (fun e => ?_) fun _ => tw_ite (fun e => ?_) fun _ => ?_
    · subst e
      have h2 : Near D G (.code ['!']) x2 y2 := Near.solid hG hn (by decide)
      have key : TwP D (parseUnary rec n) (parseUnary rec' n') x2 y2 (Nr D G) := by
        by_cases he : ∃ r, x2 = '=' :: r
        · obtain ⟨r, rfl⟩ := he
          obtain ⟨r', rfl⟩ := h2.head (by decide)
          exact tw_stuck n n' r r' _
        · refine tw_parseUnary hG hr n n' x2 y2 (h2.reset fun d r hd => ?_)
          have hd' : d ≠ '=' := fun e => he ⟨r, by rw [hd, e]⟩
          simp [symbols, hd']
      exact tw_bind key fun _ x3 y3 h3 => tw_bd fun _ => tw_pure h3
    · subst e
      have h2 : Near D G (.code ['-']) x2 y2 := Near.solid hG hn (by decide)
      refine rdB h2 (fun c c' x3 y3 _ _ hb hb' _ hn => ?_) fun r x3 y3 h3 => tw_ite (fun e => ?_) fun e => ?_
      · refine tw_not (fun e => blank_ne hb (d := '-') (by decide) (by cases e; rfl)) (fun e => blank_ne hb' (d := '-') (by decide) (by cases e; rfl)) ?_
        refine unP ?_
        exact tw_bind (tw_parseUnary hG hr n n' _ _ (hn.forget hb)) fun _ x5 y5 h5 => tw_bd fun _ => tw_pure h5
      · subst e
        have h4 : Near D G (.code []) x3 y3 := Near.whole hG (show Near D G (.code ['-']) ('-' :: x3) ('-' :: y3) from h3) (by decide) (by decide)
        refine tw_bind (tw_parseUnary hG hr n n' x3 y3 h4) fun v x5 y5 h5 => tw_ite (fun _ => tw_fail) fun _ => tw_bd fun _ => tw_pure h5
      · have h4 : Behind D G (.code []) r x3 y3 := by
          cases r with
          | ch c =>
            have hc : c ≠ '-' := fun e' => e (by rw [e'])
            exact Near.reset h3 fun d r hd => by cases hd; simp [symbols, hc]
          | eof => exact h3
          | io => exact h3
        refine tw_unreadRC h4 fun x4 y4 h4 => ?_
        exact tw_bind (tw_parseUnary hG hr n n' x4 y4 h4) fun _ x5 y5 h5 => tw_bd fun _ => tw_pure h5
    · subst e
      have h2 : Near D G (.code ['+']) x2 y2 := Near.solid hG hn (by decide)
      refine rdP h2 (fun c c' x3 y3 _ hD hb hb' _ hn => tw_yes (blank_ne hb (by decide)) (blank_ne hb' (by decide)) (tw_fails hD)) (fun c2 x3 y3 _ h3 => tw_ite (fun _ => tw_fail) fun e => ?_) tw_fail tw_fail
      have e : c2 = '+' := Classical.not_not.1 e
      subst e
      refine tw_bind (tw_parseUnary hG hr n n' x3 y3 (Near.whole hG h3 (by decide) (by decide))) fun v x5 y5 h5 => ?_
      exact tw_ite (fun _ => tw_fail) fun _ => tw_bd fun _ => tw_pure h5
    · subst e
      exact tw_bind (tw_parseUnary hG hr n n' x2 y2 (Near.own hG hn (by decide))) fun v x5 y5 h5 => tw_bd fun _ => tw_pure h5
    · subst e
      refine tw_bind (tw_parseUnary hG hr n n' x2 y2 (Near.own hG hn (by decide))) fun v x5 y5 h5 => ?_
      exact tw_ite (fun _ => tw_fail) fun _ => tw_bd fun _ => tw_pure h5
    · exact unP (tw_parsePostfix hG hr n n' hn)

theorem tw_parseExpr (hG : Ends G) : ∀ n n', RecTw D G (parseExpr n) (parseExpr n')
  | 0, _ => fun _ _ _ _ => tw_fuelL
  | _ + 1, 0 => fun _ _ _ _ => tw_fuelR
  | n + 1, n' + 1 => fun level x y h => by
    have hr := tw_parseExpr hG n n'
    refine tw_bind (tw_parseUnary hG hr n n' x y h) fun left x1 y1 h1 => ?_
    exact tw_loop (I := Nr D G) (Q := Nr D G) (fun b x y h => tw_exprBody hG hr level b h) n n' left x1 y1 h1

theorem tw_expression (hG : Ends G) (n n' : Nat) (h : Near D G (.code []) x y) : TwP D (parseExpression n) (parseExpression n') x y (Nr D G) :=
  tw_parseExpr hG n n' 15 x y h

end
end Blang.Blanks
