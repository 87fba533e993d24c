import Verif.Proofs.Level

/-!
# Texts put together

A run of the parser on a text is compared with its run on that text with another schema behind it.  `r` is what is put
behind it, `u` is `r` from its first rule on.
-/

namespace Cddl

open Ast (Ty Ty1 Ty2 MemberKeyVal GrpEntVal GrpEnt Group GrpChoice RuleVal)

/-- The first character behind white space is one of these. -/
def At (S : List Char) (k : List Char) : Prop := ∃ c v, WsTo k (c :: v) ∧ c ∈ S

theorem At.mono {S S' k : List Char} (h : At S k) (hs : ∀ c ∈ S, c ∈ S') : At S' k :=
  let ⟨c, v, h1, h2⟩ := h
  ⟨c, v, h1, hs c h2⟩

theorem At.not {k : List Char} (h : At [] k) : False := by
  obtain ⟨_, _, _, h⟩ := h
  cases h

theorem At.ws {S k : List Char} (h : At S k) : ∃ c v w, ws k = .ok (c :: v) w ∧ c ∈ S ∧ At S (c :: v) := by
  obtain ⟨c, v, h1, h2⟩ := h
  obtain ⟨w, e⟩ := h1.ws
  exact ⟨c, v, w, e, h2, c, v, ws_stable e, h2⟩

theorem At.head {S k : List Char} (h : At S k) : ∃ c v, k = c :: v ∧ (c ∈ S ∨ Blank c ∨ c = ';') := by
  obtain ⟨c, v, h1, h2⟩ := h
  cases k with
  | nil =>
    have := h1.unique (wsTo_stop (u := []) trivial)
    cases this
  | cons d k =>
    by_cases hd : Blank d ∨ d = ';'
    · exact ⟨d, k, rfl, .inr hd⟩
    · have := h1.unique (wsTo_stop (u := d :: k) hd)
      cases this
      exact ⟨_, _, rfl, .inl h2⟩

theorem At.of_head {S k : List Char} {c : Char} (hc : c ∈ S) (hb : ¬ (Blank c ∨ c = ';')) : At S (c :: k) :=
  ⟨c, k, wsTo_stop hb, hc⟩

theorem tag_begin {s : String} {d : Char} {l : List Char} (hs : s.toList = d :: l) {c : Char} (hc : c ≠ d) (v : List Char) :
    ∃ e, tag s (c :: v) = .err e := by
  refine ⟨unparseable (c :: v), ?_⟩
  simp [tag, hs, stripPrefix, hc.symm]

/-- What the two runs come to.  `near`: both have stopped in the first text.  `over`: both have taken the white space
between the texts.  `dead`: the first run has stopped where no rule can follow.  `div`: the first run has failed, and no
rule can follow where it began. -/
inductive Top {α : Type} (r u : List Char) (O V : Bool) (D F : Prop) (S : List Char) : PR α → PR α → Prop
  | near {a b} (k) : Closes 0 k → (V = true → a = b) → Top r u O V D F S (.ok k a) (.ok (k ++ r) b)
  | over {a b} : O = true → (V = true → a = b) → Top r u O V D F S (.ok [] a) (.ok u b)
  | dead (k a y) : At S k → Top r u O V D F S (.ok k a) y
  | err (e e') : Top r u O V D F S (.err e) (.err e')
  | div (e y) : D → Top r u O V D F S (.err e) y
  | fail (e e') : Top r u O V D F S (.fail e) (.fail e')
  | divF (e y) : F → Top r u O V D F S (.fail e) y
  | panic (y) : Top r u O V D F S .panic y
  | oofL (y) : Top r u O V D F S .oof y
  | oofR (y) : Top r u O V D F S y .oof

/-- What is put behind the first text. -/
structure Behind (r u : List Char) : Prop where
  apart : Apart r
  to : WsTo r u
  head : ∃ d v, u = d :: v ∧ ealphaChar d = true

section
variable {α β γ : Type} {r u : List Char} {O O' V W : Bool} {D D' F F' : Prop} {S S' : List Char}

theorem Top.of {x y : PR α} (h : Rel (Closes 0) [] r true V x y) : Top r u O V D F S x y := by
  cases h with
  | near t h1 h2 => rw [List.append_nil]; exact .near t h1 h2
  | far k h => cases h
  | err e e' => exact .err _ _
  | fail e e' => exact .fail _ _
  | panic => exact .panic _
  | oofL => exact .oofL _
  | oofR => exact .oofR _

theorem Top.mono {x y : PR α} (h : Top r u O V D F S x y) (hO : O = true → O' = true) (hD : D → D') (hF : F → F')
    (hS : ∀ c ∈ S, c ∈ S') : Top r u O' V D' F' S' x y := by
  cases h with
  | near k h1 h2 => exact .near k h1 h2
  | over h1 h2 => exact .over (hO h1) h2
  | dead k a y h => exact .dead k a y (h.mono hS)
  | err e e' => exact .err _ _
  | div e y h => exact .div _ _ (hD h)
  | fail e e' => exact .fail _ _
  | divF e y h => exact .divF _ _ (hF h)
  | panic => exact .panic _
  | oofL => exact .oofL _
  | oofR => exact .oofR _

theorem Top.bind {x y : PR α} {f g : List Char → α → PR β} (h : Top r u O V D F S x y) (hD : D → D') (hF : F → F')
    (hn : ∀ k a b, Closes 0 k → (V = true → a = b) → Top r u O' W D' F' S' (f k a) (g (k ++ r) b))
    (ho : O = true → ∀ a b, (V = true → a = b) → Top r u O' W D' F' S' (f [] a) (g u b))
    (hd : ∀ k a y, At S k → Top r u O' W D' F' S' (f k a) y) : Top r u O' W D' F' S' (x.bind f) (y.bind g) := by
  cases h with
  | near k h1 h2 => exact hn k _ _ h1 h2
  | over h1 h2 => exact ho h1 _ _ h2
  | dead k a y h => exact hd k a _ h
  | err e e' => exact .err _ _
  | div e y h => exact .div _ _ (hD h)
  | fail e e' => exact .fail _ _
  | divF e y h => exact .divF _ _ (hF h)
  | panic => exact .panic _
  | oofL => exact .oofL _
  | oofR => exact .oofR _

/-- Of a parser, on all texts that end outside of brackets. -/
def TSim (r u : List Char) (O V : Bool) (SD S : List Char) (p : P α) : Prop :=
  ∀ t, Closes 0 t → Top r u O V (At SD t) False S (p t) (p (t ++ r))

theorem TSim.of {p : P α} {SD : List Char} (h : Sim (Closes 0) (Closes 0) [] r true V p) : TSim r u O V SD S p := by
  intro t ht
  have := h t ht
  rw [List.append_nil] at this
  exact .of this

theorem Top.pmap {x y : PR α} (f : α → β) (h : Top r u O V D F S x y) :
    Top r u O V D F S (x.bind fun r a => .ok r (f a)) (y.bind fun r a => .ok r (f a)) :=
  h.bind id id (fun k a b hk e => .near k hk fun hV => by rw [e hV]) (fun ho a b e => .over ho fun hV => by rw [e hV])
    fun k a y h => .dead k _ _ h

theorem TSim.pmap {p : P α} {SD : List Char} (f : α → β) (h : TSim r u O V SD S p) : TSim r u O V SD S (Cddl.pmap f p) :=
  fun t ht => (h t ht).pmap f

theorem Top.opt {p : P α} {t : List Char} {SD : List Char} (ht : Closes 0 t)
    (h : Top r u O V (At SD t) F S (p t) (p (t ++ r))) :
    Top r u O V D F (SD ++ S) (Cddl.opt p t) (Cddl.opt p (t ++ r)) := by
  simp only [Cddl.opt]
  generalize p t = x at h ⊢
  generalize p (t ++ r) = y at h ⊢
  cases h with
  | near k h1 h2 => exact .near k h1 fun hV => by rw [h2 hV]
  | over h1 h2 => exact .over h1 fun hV => by rw [h2 hV]
  | dead k a y h => exact .dead k _ _ (h.mono fun c hc => List.mem_append_right _ hc)
  | err e e' => exact .near t ht fun _ => rfl
  | div e y h => exact .dead t _ _ (h.mono fun c hc => List.mem_append_left _ hc)
  | fail e e' => exact .fail _ _
  | divF e y h => exact .divF _ _ h
  | panic => exact .panic _
  | oofL => exact .oofL _
  | oofR => exact .oofR _

/-- Two alternatives, the first one of which fails at the end only where the second one does. -/
theorem Top.alt {p q : P α} {t : List Char} (h : Top r u O V D F S (p t) (p (t ++ r)))
    (h' : Top r u O V D' F S (q t) (q (t ++ r))) (hd : D → (∃ e, p t = .err e) → ∃ e, q t = .err e) (hD : D → D') :
    Top r u O V D' F S (Cddl.alt p q t) (Cddl.alt p q (t ++ r)) := by
  simp only [Cddl.alt]
  generalize hx : p t = x at h ⊢
  generalize hy : p (t ++ r) = y at h ⊢
  cases h with
  | near k h1 h2 => exact .near k h1 h2
  | over h1 h2 => exact .over h1 h2
  | dead k a y h => exact .dead k _ _ h
  | err e e' => exact h'
  | div e y h =>
    obtain ⟨e1, h1⟩ := hd h ⟨_, hx⟩
    rw [h1]
    exact .div _ _ (hD h)
  | fail e e' => exact .fail _ _
  | divF e y h => exact .divF _ _ h
  | panic => exact .panic _
  | oofL => exact .oofL _
  | oofR x =>
    cases x with
    | err e => exact .oofR _
    | _ => exact .oofR _

theorem TSim.alt {p q : P α} {SD : List Char} (h : TSim r u O V [] S p) (h' : TSim r u O V SD S q) :
    TSim r u O V SD S (Cddl.alt p q) := fun t ht =>
  (h t ht).alt (h' t ht) (fun h => h.not.elim) fun h => h.not.elim

theorem TSim.mono {p : P α} {SD SD' : List Char} (h : TSim r u O V SD S p) (hO : O = true → O' = true) (hD : ∀ c ∈ SD, c ∈ SD')
    (hS : ∀ c ∈ S, c ∈ S') : TSim r u O' V SD' S' p := fun t ht => (h t ht).mono hO (fun h => h.mono hD) id hS

variable (B : Behind r u)
include B

/-- White space, to its end in the first text or to the first rule of the second. -/
theorem ws_top {t : List Char} (ht : Closes 0 t) :
    (∃ w w', ws t = .ok [] w ∧ ws (t ++ r) = .ok u w') ∨ ∃ c v w w', ws t = .ok (c :: v) w ∧
      ws (t ++ r) = .ok ((c :: v) ++ r) w' ∧ Closes 0 (c :: v) ∧ WsTo t (c :: v) ∧ WsTo (c :: v) (c :: v) := by
  have over : WS t → ∃ w w', ws t = .ok [] w ∧ ws (t ++ r) = .ok u w' := by
    intro hw
    obtain ⟨a, e1⟩ := (hw.to (wsTo_stop (u := []) trivial)).ws
    obtain ⟨b, e2⟩ := (hw.to B.to).ws
    rw [List.append_nil] at e1
    exact ⟨a, b, e1, e2⟩
  rcases ht.outside.white with hw | ⟨w, v, rfl, hw, hv, hs⟩
  · exact .inl (over hw)
  · cases v with
    | nil => exact .inl (over (by simpa using hw))
    | cons c v =>
      have h0 := hs []
      rw [List.append_nil] at h0
      obtain ⟨a, e1⟩ := (hw.to h0).ws
      obtain ⟨b, e2⟩ := (hw.to (hs r)).ws
      exact .inr ⟨c, v, a, b, e1, by rw [List.append_assoc]; exact e2, (hw.lev 0 _).1 ht, hw.to h0, h0⟩

theorem Behind.ne {c : Char} (hc : ealphaChar c = false) : ∃ d v, u = d :: v ∧ d ≠ c := by
  obtain ⟨d, v, rfl, hd⟩ := B.head
  exact ⟨d, v, rfl, by rintro rfl; rw [hc] at hd; cases hd⟩

theorem Behind.ws : ∃ w, ws u = .ok u w := by
  obtain ⟨d, v, rfl, hd⟩ := B.head
  exact (wsTo_stop (u := d :: v) (by
    have := tame_ealpha d hd
    rintro (h | h)
    · exact this.2.2.2 h
    · exact this.2.2.1 h)).ws

/-- White space and something behind it that begins with `c`. -/
theorem tail_top {q : P α} {c : Char} (hc : ealphaChar c = false) (h0 : ∃ e, q [] = .err e)
    (h1 : ∀ d v, d ≠ c → ∃ e, q (d :: v) = .err e)
    (h2 : ∀ v, Closes 0 (c :: v) → Top r u O V True False S (q (c :: v)) (q (c :: v ++ r))) :
    TSim r u O V [c] S (preceded ws q) := by
  intro t ht
  simp only [preceded]
  rcases ws_top B ht with ⟨w, w', e1, e2⟩ | ⟨d, v, w, w', e1, e2, h3, h4, _⟩
  · rw [e1, e2]
    obtain ⟨e, h0⟩ := h0
    obtain ⟨d, v, rfl, hd⟩ := B.ne hc
    obtain ⟨e', h1⟩ := h1 d v hd
    simp only [PR.bind, h0, h1]
    exact .err _ _
  · rw [e1, e2]
    simp only [PR.bind]
    by_cases hd : d = c
    · subst hd
      exact (h2 v h3).mono id (fun _ => ⟨d, v, h4, by simp⟩) id fun _ h => h
    · obtain ⟨e, h⟩ := h1 d v hd
      obtain ⟨e', h'⟩ := h1 d (v ++ r) hd
      rw [List.cons_append, h, h']
      exact .err _ _

/-- Something that begins with `c`. -/
theorem begin_top {q : P α} {c : Char} (hc : ¬ (Blank c ∨ c = ';')) (h0 : ∃ e, q [] = .err e)
    (h1 : ∀ d v, d ≠ c → ∃ e, q (d :: v) = .err e)
    (h2 : ∀ v, Closes 0 (c :: v) → Top r u O V True False S (q (c :: v)) (q (c :: v ++ r))) : TSim r u O V [c] S q := by
  intro t ht
  cases t with
  | nil =>
    obtain ⟨e, h0⟩ := h0
    cases r with
    | nil => rw [List.append_nil, h0]; exact .err _ _
    | cons d v =>
      obtain ⟨e', h1⟩ := h1 d v (by rintro rfl; exact hc (B.apart d v rfl))
      rw [List.nil_append, h0, h1]
      exact .err _ _
  | cons d v =>
    by_cases hd : d = c
    · subst hd
      exact (h2 v ht).mono id (fun _ => .of_head (by simp) hc) id fun _ h => h
    · obtain ⟨e, h⟩ := h1 d v hd
      obtain ⟨e', h'⟩ := h1 d (v ++ r) hd
      rw [List.cons_append, h, h']
      exact .err _ _

/-- White space, and then something that fails at the end of the text. -/
theorem ws_then {q : P α} (h0 : (∃ e, q [] = .err e) ∨ q [] = .oof) {t : List Char} (ht : Closes 0 t)
    (h : ∀ c v, WsTo (c :: v) (c :: v) → WsTo t (c :: v) → Closes 0 (c :: v) → Top r u O V True F S (q (c :: v)) (q (c :: v ++ r))) :
    Top r u O V True F S (preceded ws q t) (preceded ws q (t ++ r)) := by
  simp only [preceded]
  rcases ws_top B ht with ⟨w, w', e1, e2⟩ | ⟨d, v, w, w', e1, e2, h3, h4, h5⟩
  · rw [e1, e2]
    rcases h0 with ⟨e, h0⟩ | h0
    · simp only [PR.bind, h0]
      exact .div _ _ trivial
    · simp only [PR.bind, h0]
      exact .oofL _
  · rw [e1, e2]
    exact h d v h5 h4 h3

/-- White space behind. -/
theorem top_ws {p : P α} {t : List Char} (h : Top r u O V D F S (p t) (p (t ++ r))) :
    Top r u true V D F S (terminated p ws t) (terminated p ws (t ++ r)) := by
  simp only [terminated]
  refine h.bind id id (fun k a b hk e => ?_) (fun _ a b e => ?_) fun k a y hk => ?_
  · rcases ws_top B hk with ⟨w, w', e1, e2⟩ | ⟨d, v, w, w', e1, e2, h3, _⟩
    · rw [e1, e2]
      exact .over rfl e
    · rw [e1, e2]
      exact .near _ h3 e
  · obtain ⟨w, e1⟩ := B.ws
    obtain ⟨w', e2⟩ := (wsTo_stop (u := []) trivial).ws
    rw [e1, e2]
    exact .over rfl e
  · obtain ⟨c, v, w, e, _, h2⟩ := hk.ws
    rw [e]
    exact .dead _ _ _ h2

end

theorem chr_head {c d : Char} (h : d ≠ c) (v : List Char) : ∃ e, chr c (d :: v) = .err e := chr_close.2 d v h

/-! ## The grammar -/

section
variable {α β : Type} {r u : List Char} {S : List Char} {O : Bool} {D F : Prop}

/-- The rest of a list with separators that begin with `c`. -/
theorem sepLoop_top {sep : P β} {p : P α} {c : Char} (B : Behind r u)
    (hsep : TSim r u true false [c] [] sep) (hsep0 : ∃ e, sep [] = .err e) (hsepu : ∃ e, sep u = .err e)
    (hp0 : (∃ e, p [] = .err e) ∨ p [] = .oof)
    (hp : ∀ t, Closes 0 t → Top r u O true True False S (p t) (p (t ++ r)))
    (hS : ∀ k, At S k → ∃ e, sep k = .err e)
    (hc : ∀ t k b, sep t = .ok k b → At [c] t ∧ k.length ≠ t.length) :
    ∀ (n m : Nat) t, Closes 0 t → Top r u O true D False (c :: S) (sepLoop sep p n t) (sepLoop sep p m (t ++ r))
  | 0, _, _, _ => .oofL _
  | n + 1, 0, _, _ => .oofR _
  | n + 1, m + 1, t, ht => by
    have hs := hsep t ht
    simp only [sepLoop]
    have hx := hc t
    have hy := hc (t ++ r)
    generalize sep t = x at hs hx ⊢
    generalize sep (t ++ r) = y at hs hy ⊢
    cases hs with
    | @near a b k h1 h2 =>
      obtain ⟨hat, hl⟩ := hx _ _ rfl
      dsimp only
      rw [if_neg hl]
      rw [if_neg (hy _ _ rfl).2]
      have := hp k h1
      generalize p k = x at this ⊢
      generalize p (k ++ r) = y at this ⊢
      cases this with
      | near k' h3 h4 =>
        rw [h4 rfl]
        exact (sepLoop_top B hsep hsep0 hsepu hp0 hp hS hc n m k' h3).bind id id
          (fun k a b hk e => .near k hk fun hV => by rw [e hV]) (fun ho a b e => .over ho fun hV => by rw [e hV])
          fun k a y h => .dead _ _ _ h
      | over ho h4 =>
        rw [h4 rfl]
        dsimp only
        obtain ⟨e, h5⟩ := hsep0
        obtain ⟨e', h6⟩ := hsepu
        cases n with
        | zero => exact .oofL _
        | succ n =>
          cases m with
          | zero => exact .oofR _
          | succ m =>
            simp only [sepLoop, h5, h6, PR.bind]
            exact .over ho fun _ => rfl
      | dead k' a y h =>
        dsimp only
        obtain ⟨e, h5⟩ := hS k' h
        cases n with
        | zero => exact .oofL _
        | succ n =>
          simp only [sepLoop, h5, PR.bind]
          exact .dead _ _ _ (h.mono fun d hd => .tail _ hd)
      | err e e' => exact .dead _ _ _ (hat.mono (by simp))
      | div e y h => exact .dead _ _ _ (hat.mono (by simp))
      | fail e e' => exact .fail _ _
      | divF e y h => exact h.elim
      | panic => exact .panic _
      | oofL => exact .oofL _
      | oofR x =>
        cases x with
        | err => exact .dead _ _ _ (hat.mono (by simp))
        | _ => exact .oofR _
    | over ho h2 =>
      obtain ⟨hat, hl⟩ := hx _ _ rfl
      dsimp only
      rw [if_neg hl]
      rcases hp0 with ⟨e, h3⟩ | h3
      · rw [h3]
        exact .dead _ _ _ (hat.mono (by simp))
      · rw [h3]
        exact .oofL _
    | dead k a y h => exact h.not.elim
    | err e e' => exact .near t ht fun _ => rfl
    | div e y h => exact .dead _ _ _ (h.mono (by simp))
    | fail e e' => exact .fail _ _
    | divF e y h => exact h.elim
    | panic => exact .panic _
    | oofL => exact .oofL _
    | oofR => exact .oofR _

/-- A list with separators. -/
theorem sepList1_top {sep : P β} {p : P α} {c : Char} (B : Behind r u)
    (hsep : TSim r u true false [c] [] sep) (hsep0 : ∃ e, sep [] = .err e) (hsepu : ∃ e, sep u = .err e)
    (hp0 : (∃ e, p [] = .err e) ∨ p [] = .oof) {SD : List Char} (hp : TSim r u O true SD S p)
    (hS : ∀ k, At S k → ∃ e, sep k = .err e)
    (hc : ∀ t k b, sep t = .ok k b → At [c] t ∧ k.length ≠ t.length) : TSim r u O true SD (c :: S) (sepList1 sep p) := by
  intro t ht
  simp only [sepList1]
  refine (hp t ht).bind id id (fun k a b hk e => ?_) (fun ho a b e => ?_) fun k a y h => ?_
  · rw [e rfl]
    refine ((sepLoop_top B hsep hsep0 hsepu hp0 (fun t ht => (hp t ht).mono id (fun _ => trivial) id fun _ h => h) hS hc
      (k.length + 1) ((k ++ r).length + 1) k hk)).bind id id
          (fun k a b hk e => .near k hk fun hV => by rw [e hV]) (fun ho a b e => .over ho fun hV => by rw [e hV])
          fun k a y h => .dead _ _ _ h
  · rw [e rfl]
    obtain ⟨e, h5⟩ := hsep0
    obtain ⟨e', h6⟩ := hsepu
    simp only [sepLoop, h5, h6, PR.bind]
    exact .over ho fun _ => rfl
  · obtain ⟨e, h5⟩ := hS k h
    simp only [sepLoop, h5, PR.bind]
    exact .dead _ _ _ (h.mono fun d hd => .tail _ hd)

/-- A repetition of something that begins with `c`. -/
theorem many0Loop_top {q : P α} {c : Char} (hq : TSim r u false true [c] S q) (hS : ∀ k, At S k → ∃ e, q k = .err e)
    (hT : Takes 1 q) : ∀ (n m : Nat) t, Closes 0 t →
      Top r u false true D False (c :: S) (many0Loop q n t) (many0Loop q m (t ++ r))
  | 0, _, _, _ => .oofL _
  | n + 1, 0, _, _ => .oofR _
  | n + 1, m + 1, t, ht => by
    have h := hq t ht
    simp only [many0Loop]
    have hx := hT t
    have hy := hT (t ++ r)
    generalize q t = x at h hx ⊢
    generalize q (t ++ r) = y at h hy ⊢
    cases h with
    | near k h1 h2 =>
      have := hx _ _ rfl
      have := hy _ _ rfl
      dsimp only
      rw [if_neg (by omega), if_neg (by omega), h2 rfl]
      exact (many0Loop_top hq hS hT n m k h1).bind id id (fun k a b hk e => .near k hk fun hV => by rw [e hV])
        (fun ho => by cases ho) fun k a y h => .dead _ _ _ h
    | over h1 _ => cases h1
    | dead k a y h =>
      have := hx _ _ rfl
      dsimp only
      rw [if_neg (by omega)]
      obtain ⟨e, h5⟩ := hS k h
      cases n with
      | zero => exact .oofL _
      | succ n =>
        simp only [many0Loop, h5, PR.bind]
        exact .dead _ _ _ (h.mono fun d hd => .tail _ hd)
    | err e e' => exact .near t ht fun _ => rfl
    | div e y h => exact .dead _ _ _ (h.mono (by simp))
    | fail e e' => exact .fail _ _
    | divF e y h => exact h.elim
    | panic => exact .panic _
    | oofL => exact .oofL _
    | oofR => exact .oofR _

end

section
variable {α β : Type} {r u : List Char} (B : Behind r u)
include B

theorem top_lit {V O : Bool} {SD S : List Char} {s : String} (h : tameTag' s = true) : TSim r u O V SD S (tag s) :=
  .of (lev_lit (fun _ => fun _ _ h => by cases h) (fun _ => B.apart) h)

theorem top_ident {V O : Bool} {SD S : List Char} : TSim r u O V SD S ident :=
  .of (lev_ident (fun _ => fun _ _ h => by cases h) (fun _ => B.apart))

theorem top_slash : TSim r u true false ['/'] [] slash := by
  refine tail_top B (by decide) ⟨_, rfl⟩ (fun d v hd => ?_) fun v hv => ?_
  · obtain ⟨e, h⟩ := tag_begin (s := "/") (d := '/') (l := []) (by decide) hd v
    exact ⟨e, by simp only [terminated, h, PR.bind]⟩
  · exact top_ws B ((top_lit B (O := false) (SD := []) (by decide) _ hv).mono id (fun h => h.not.elim) id fun _ h => h)

theorem slash_u : ∃ e, slash u = .err e := by
  obtain ⟨d, v, rfl, hd⟩ := B.ne (c := '/') (by decide)
  obtain ⟨w, e⟩ := B.ws
  obtain ⟨e', h⟩ := tag_begin (s := "/") (d := '/') (l := []) (by decide) hd v
  exact ⟨e', by simp only [slash, delimited, preceded, terminated, e, h, PR.bind]⟩

omit B in
theorem slash_at {S k : List Char} (h : At S k) (hS : '/' ∉ S) : ∃ e, slash k = .err e := by
  obtain ⟨c, v, w, e, hc, _⟩ := h.ws
  obtain ⟨e', h⟩ := tag_begin (s := "/") (d := '/') (l := []) (c := c) (by decide) (by rintro rfl; exact hS hc) v
  exact ⟨e', by simp only [slash, delimited, preceded, terminated, e, h, PR.bind]⟩

omit B in
theorem tag_at {S k : List Char} {s : String} {d : Char} {l : List Char} (hs : s.toList = d :: l) (h : At S k) (hS : d ∉ S)
    (hb : ¬ (Blank d ∨ d = ';')) : ∃ e, tag s k = .err e := by
  obtain ⟨c, v, rfl, hc⟩ := h.head
  refine tag_begin hs ?_ v
  rintro rfl
  rcases hc with hc | hc
  · exact hS hc
  · exact hb hc

omit B in
theorem slash_begin {t k b : List Char} (h : slash t = .ok k b) : At ['/'] t ∧ k.length ≠ t.length := by
  refine ⟨?_, by have := takes_slash t k b h; omega⟩
  obtain ⟨v, hv⟩ := wsTo_total t
  obtain ⟨w, e⟩ := hv.ws
  cases v with
  | nil =>
    simp only [slash, delimited, preceded, e, PR.bind] at h
    cases h
  | cons c v =>
    by_cases hc : c = '/'
    · exact ⟨c, v, hv, by simp [hc]⟩
    · obtain ⟨e', h'⟩ := tag_begin (s := "/") (d := '/') (l := []) (by decide) hc v
      simp only [slash, delimited, preceded, terminated, e, h', PR.bind] at h
      cases h

theorem ws_tsim : TSim r u true false [] [] ws := by
  intro t ht
  rcases ws_top B ht with ⟨w, w', e1, e2⟩ | ⟨d, v, w, w', e1, e2, h3, _⟩
  · rw [e1, e2]
    exact .over rfl fun h => by cases h
  · rw [e1, e2]
    exact .near _ h3 fun h => by cases h

theorem pair_ws {s : String} {d : Char} (hs : s.toList = [d] ∧ tameTag' s = true) {v : List Char} (hv : Closes 0 (d :: v)) :
    Top r u true false True False [] (pair (tag s) ws (d :: v)) (pair (tag s) ws (d :: v ++ r)) := by
  refine (top_lit B (V := false) (O := false) (SD := []) (S := []) hs.2 _ hv).bind (fun h => h.not.elim) id
    (fun k _ _ hk _ => ?_) (fun h => by cases h) fun k a y h => h.not.elim
  exact (ws_tsim B k hk).bind (fun h => h.not.elim) id (fun k _ _ hk _ => .near k hk fun h => by cases h)
    (fun _ _ _ _ => .over rfl fun h => by cases h) fun k a y h => h.not.elim

theorem comma_u : ∃ e, pair (tag ",") ws u = .err e := by
  obtain ⟨d, v, rfl, hd⟩ := B.ne (c := ',') (by decide)
  obtain ⟨e', h⟩ := tag_begin (s := ",") (d := ',') (l := []) (by decide) hd v
  exact ⟨e', by simp only [pair, h, PR.bind]⟩

omit B in
theorem comma_begin {t k : List Char} {b} (h : pair (tag ",") ws t = .ok k b) : At [','] t ∧ k.length ≠ t.length := by
  refine ⟨?_, by have := takes_comma t k b h; omega⟩
  cases t with
  | nil => cases h
  | cons c v =>
    by_cases hc : c = ','
    · subst hc
      exact .of_head (by simp) (by decide)
    · obtain ⟨e', h'⟩ := tag_begin (s := ",") (d := ',') (l := []) (by decide) hc v
      simp only [pair, h', PR.bind] at h
      cases h

theorem top_comma : TSim r u true false [','] [] (pair (tag ",") ws) := by
  refine begin_top B (by decide) ⟨_, rfl⟩ (fun d v hd => ?_) fun v hv => ?_
  · obtain ⟨e, h⟩ := tag_begin (s := ",") (d := ',') (l := []) (by decide) hd v
    exact ⟨e, by simp only [pair, h, PR.bind]⟩
  · exact pair_ws B (s := ",") (d := ',') (by decide) hv

end

/-! ## Types -/

/-- What is needed of the recursive parsers. -/
structure PRec.Tops (r u : List Char) (R : PRec) : Prop where
  type2 : TSim r u false true ['~', '&'] ['<'] R.type2
  nil : (∃ e, R.type2 [] = .err e) ∨ R.type2 [] = .oof

section
variable {α β : Type} {r u : List Char} (B : Behind r u) {R : PRec} (h : R.Tops r u) (hI : R.Inside [] r)
include h

omit h in
theorem pair_nil {p : P α} {q : P β} (h : (∃ e, p [] = .err e) ∨ p [] = .oof) :
    (∃ e, pair p q [] = .err e) ∨ pair p q [] = .oof := by
  rcases h with ⟨e, h⟩ | h
  · exact .inl ⟨e, by simp only [pair, h, PR.bind]⟩
  · exact .inr (by simp only [pair, h, PR.bind])

omit h in
theorem pmap_nil {p : P α} {f : α → β} (h : (∃ e, p [] = .err e) ∨ p [] = .oof) :
    (∃ e, pmap f p [] = .err e) ∨ pmap f p [] = .oof := by
  rcases h with ⟨e, h⟩ | h
  · exact .inl ⟨e, by simp only [pmap, h, PR.bind]⟩
  · exact .inr (by simp only [pmap, h, PR.bind])

omit h in
theorem terminated_nil {p : P α} {q : P β} (h : (∃ e, p [] = .err e) ∨ p [] = .oof) :
    (∃ e, terminated p q [] = .err e) ∨ terminated p q [] = .oof := by
  rcases h with ⟨e, h⟩ | h
  · exact .inl ⟨e, by simp only [terminated, h, PR.bind]⟩
  · exact .inr (by simp only [terminated, h, PR.bind])

omit h in
theorem sepList1_nil {p : P α} {q : P β} (h : (∃ e, p [] = .err e) ∨ p [] = .oof) :
    (∃ e, sepList1 q p [] = .err e) ∨ sepList1 q p [] = .oof := by
  rcases h with ⟨e, h⟩ | h
  · exact .inl ⟨e, by simp only [sepList1, h, PR.bind]⟩
  · exact .inr (by simp only [sepList1, h, PR.bind])

theorem type1_nil : (∃ e, type1 R [] = .err e) ∨ type1 R [] = .oof := pmap_nil (pair_nil h.nil)
theorem ty_nil : (∃ e, ty R [] = .err e) ∨ ty R [] = .oof := sepList1_nil (type1_nil h)

omit h in
theorem rangeOp_head {d : Char} (hd : d ≠ '.') (v : List Char) : ∃ e, rangeOrControlOp R (d :: v) = .err e := by
  obtain ⟨e1, h1⟩ := tag_begin (s := "...") (d := '.') (l := ['.', '.']) (by decide) hd v
  obtain ⟨e2, h2⟩ := tag_begin (s := "..") (d := '.') (l := ['.']) (by decide) hd v
  obtain ⟨e3, h3⟩ := tag_begin (s := ".") (d := '.') (l := []) (by decide) hd v
  exact ⟨e3, by simp only [rangeOrControlOp, pair, alt, controlOp, preceded, h1, h2, h3, PR.bind]⟩

include B in
theorem top_type1 : TSim r u false true ['~', '&'] ['.', '<'] (type1 R) := by
  refine .pmap _ fun t ht => ?_
  have tail : TSim r u false true ['.'] ['<'] (preceded ws (rangeOrControlOp R)) := by
    refine tail_top B (by decide) ⟨_, rfl⟩ (fun d v hd => rangeOp_head hd v) fun v hv => ?_
    have op : TSim r u false true [] [] (alt (tag "...") (alt (tag "..") controlOp)) := by
      refine .of (.alt (lev_lit ?_ ?_ (by decide)) (.alt (lev_lit ?_ ?_ (by decide)) (.preceded (lev_lit ?_ ?_ (by decide)) (lev_ident ?_ ?_))))
      all_goals first | exact fun _ => B.apart | exact fun _ _ _ h => by cases h
    refine (op _ hv).bind (fun h => h.not.elim) id (fun k a b hk e => ?_) (fun h => by cases h) fun k a y h => h.not.elim
    rw [e rfl]
    refine (ws_then B h.nil hk fun c v _ _ hv => (h.type2 _ hv).mono id (fun _ => trivial) id fun _ h => h).bind id id
      (fun k a b hk e => .near k hk fun hV => by rw [e hV]) (fun h => by cases h) fun k a y h => .dead _ _ _ h
  refine (h.type2 t ht).bind id id (fun k a b hk e => ?_) (fun h => by cases h) fun k a y hk => ?_
  · rw [e rfl]
    exact (Top.opt (D := At ['~', '&'] t) hk (tail k hk)).bind id id (fun k a b hk e => .near k hk fun hV => by rw [e hV])
      (fun h => by cases h) fun k a y h => .dead _ _ _ h
  · obtain ⟨c, v, w, e, hc, _⟩ := hk.ws
    obtain ⟨e', h'⟩ := rangeOp_head (R := R) (d := c) (by rintro rfl; simp at hc) v
    simp only [opt, preceded, e, h', PR.bind]
    exact .dead _ _ _ (hk.mono (by simp))

include B in
theorem top_ty : TSim r u false true ['~', '&'] ['/', '.', '<'] (ty R) :=
  sepList1_top B (top_slash B) ⟨_, rfl⟩ (slash_u B) (type1_nil h) (top_type1 B h) (fun _ hk => slash_at hk (by decide))
    fun _ _ _ => slash_begin

include B in
theorem top_nameGeneric : TSim r u false true [] ['<'] (nameGenericP R) := by
  refine .pmap _ fun t ht => ?_
  have arg : TSim r u false true ['<'] [] (genericArg R) := by
    refine begin_top B (by decide) ⟨_, rfl⟩ (fun d v hd => ?_) fun v hv => ?_
    · obtain ⟨e, h⟩ := tag_begin (s := "<") (d := '<') (l := []) (by decide) hd v
      exact ⟨e, by simp only [genericArg, delimited, preceded, pair, h, PR.bind]⟩
    · have item : TSim r u true true ['~', '&'] ['.', '<'] (terminated (type1 R) ws) := fun t ht => top_ws B (top_type1 B h t ht)
      have list : TSim r u true true ['~', '&'] [',', '.', '<'] (sepList1 (pair (tag ",") ws) (terminated (type1 R) ws)) := by
        refine sepList1_top B (top_comma B) ⟨_, rfl⟩ (comma_u B) (terminated_nil (type1_nil h)) item (fun k hk => ?_)
          fun t k b => comma_begin
        obtain ⟨e, h⟩ := tag_at (s := ",") (d := ',') (l := []) (by decide) hk (by decide) (by decide)
        exact ⟨e, by simp only [pair, h, PR.bind]⟩
      refine (pair_ws B (s := "<") (d := '<') (by decide) hv).bind id id (fun k a b hk _ => ?_) (fun _ a b _ => ?_)
        fun k a y h => h.not.elim
      · refine ((list k hk).mono id (D' := True) (fun _ => trivial) id fun _ h => h).bind id id (fun k a b hk e => ?_)
          (fun _ a b _ => ?_) fun k a y hk => ?_
        · rw [e rfl]
          exact (top_lit B (V := false) (O := false) (SD := []) (S := []) (s := ">") (by decide) k hk).bind (fun h => h.not.elim) id
            (fun k _ _ hk _ => .near k hk fun _ => rfl) (fun h => by cases h) fun k a y h => h.not.elim
        · exact .div _ _ trivial
        · obtain ⟨e, h⟩ := tag_at (s := ">") (d := '>') (l := []) (by decide) hk (by decide) (by decide)
          rw [h]
          exact .div _ _ trivial
      · have := terminated_nil (q := tag ">") (sepList1_nil (q := pair (tag ",") ws) (terminated_nil (q := ws) (type1_nil h)))
        rcases this with ⟨e, h⟩ | h
        · rw [h]
          exact .div _ _ trivial
        · rw [h]
          exact .oofL _
  refine (top_ident B (V := true) (O := false) (SD := []) (S := []) t ht).bind id id (fun k a b hk e => ?_) (fun h => by cases h)
    fun k a y h => h.not.elim
  rw [e rfl]
  exact (Top.opt (D := At [] t) hk (arg k hk)).bind id id (fun k a b hk e => .near k hk fun hV => by rw [e hV])
    (fun h => by cases h) fun k a y h => .dead _ _ _ h

include B in
omit h in
theorem top_brackets {p : P α} {c d : Char} {SD S : List Char} {O : Bool} (hc : c = '(' ∨ c = '[' ∨ c = '{')
    (hd : d = ')' ∨ d = ']' ∨ d = '}') (hp : Inside [] r true p) :
    TSim r u O true SD S (delimited (chr c) (delimited ws p ws) (chr d)) :=
  .of (lev_brackets hc hd (fun _ _ _ h => by cases h) (fun _ => B.apart) hp)

include B hI in
theorem top_type2 (x : ParseExt) : TSim r u false true ['~', '&'] ['<'] (type2 x R) := by
  have pre : ∀ {α : Type} {d : Char} {s : String} {q : P α}, s.toList = [d] → tameTag' s = true →
      ¬ (Blank d ∨ d = ';') → (∃ e, q [] = .err e) → TSim r u false true [] ['<'] q →
      TSim r u false true [d] ['<'] (preceded (tag s) (preceded ws q)) := by
    intro α d s q hs hs' hb h0 hq
    refine begin_top B hb ?_ (fun c v hc => ?_) fun v hv => ?_
    · exact ⟨unparseable [], by simp [preceded, tag, hs, stripPrefix]⟩
    · obtain ⟨e, h⟩ := tag_begin hs hc v
      exact ⟨e, by simp only [preceded, h, PR.bind]⟩
    · refine (top_lit B (V := false) (O := false) (SD := []) (S := []) hs' _ hv).bind (fun h => h.not.elim) id
        (fun k _ _ hk _ => ?_) (fun h => by cases h) fun k a y h => h.not.elim
      exact ws_then B (.inl h0) hk fun c v _ _ hv => (hq _ hv).mono id (fun _ => trivial) id fun _ h => h
  have name0 : ∃ e, nameGenericP R [] = .err e := ⟨_, rfl⟩
  refine .alt (.pmap _ (.of (lev_value (fun _ _ _ h => by cases h) (fun _ => B.apart) x))) (.alt (.pmap _ (top_nameGeneric B h))
    (.alt (.pmap _ (top_brackets B (by decide) (by decide) (in_ty hI)))
    (.alt (.pmap _ (top_brackets B (by decide) (by decide) hI.group))
    (.alt (.pmap _ (top_brackets B (by decide) (by decide) hI.group)) fun t ht => ?_))))
  refine Top.alt (D := At ['~'] t) ((TSim.pmap _ (pre (d := '~') (by decide) (by decide) (by decide) name0 (top_nameGeneric B h))) t ht)
    (Top.alt (D := False) (D' := At ['~', '&'] t) ((?_ : TSim r u false true [] ['<'] _).pmap _ t ht |>.mono id (fun h => h.not) id fun _ h => h)
      ((TSim.mono (TSim.pmap _ (pre (d := '&') (by decide) (by decide) (by decide) name0 (top_nameGeneric B h))) id
        (by simp) fun _ h => h) t ht) (fun h => h.elim) fun h => h.elim) (fun hk _ => ?_) fun h => h.mono (by simp)
  · intro t ht
    simp only [preceded]
    refine (top_lit B (V := false) (O := false) (SD := []) (S := []) (s := "&") (by decide) t ht).bind id id
        (fun k _ _ hk _ => ?_) (fun h => by cases h) fun k a y h => h.not.elim
    rcases ws_top B hk with ⟨w, w', e1, e2⟩ | ⟨d, v, w, w', e1, e2, h3, h4, h5⟩
    · rw [e1, e2]
      obtain ⟨d, v, rfl, hd⟩ := B.ne (c := '(') (by decide)
      obtain ⟨e', h'⟩ := chr_head hd v
      simp only [PR.bind, inParens, delimited, preceded, h']
      exact .err _ _
    · rw [e1, e2]
      exact (top_brackets B (c := '(') (d := ')') (O := false) (S := ['<']) (SD := []) (by decide) (by decide) hI.group _ h3).mono id
        (fun h => h.not.elim) id fun _ h => h
  · obtain ⟨e, h⟩ := tag_at (s := "&") (d := '&') (l := []) (by decide) hk (by decide) (by decide)
    exact ⟨e, by simp only [alt, pmap, preceded, h, PR.bind]⟩

end

theorem top_parsers {r u : List Char} (B : Behind r u) (x : ParseExt) : ∀ k, (parsers x k).Tops r u
  | 0 => ⟨fun _ _ => .oofL _, .inr rfl⟩
  | k + 1 => ⟨top_type2 B (top_parsers B x k) (in_parsers [] r x k) x, .inl ⟨_, rfl⟩⟩

end Cddl
