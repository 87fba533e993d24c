import Verif.Proofs.GapAll

/-!
# Brackets

What follows the bracket that closes a group or type does not matter to the parsers inside.
-/

namespace Cddl

open Ast (Ty Ty1 Ty2 MemberKeyVal GrpEntVal GrpEnt Group GrpChoice RuleVal)

/-- From the given spot on, the text closes `n` brackets more than it opens, in good order, and ends outside of literals and
comments. -/
def Lev : Spot → Nat → List Char → Prop
  | p, n, [] => p = .code ∧ n = 0
  | .code, n, c :: t =>
    if c = '(' ∨ c = '[' ∨ c = '{' then Lev .code (n + 1) t
    else if c = ')' ∨ c = ']' ∨ c = '}' then n ≠ 0 ∧ Lev .code (n - 1) t
    else Lev (Spot.next .code c) n t
  | p, n, c :: t => Lev (Spot.next p c) n t

abbrev Closes (n : Nat) (t : List Char) : Prop := Lev .code n t

/-- Neither a bracket nor the beginning of a literal or comment. -/
def Plain (c : Char) : Prop :=
  ¬ (c = '(' ∨ c = '[' ∨ c = '{') ∧ ¬ (c = ')' ∨ c = ']' ∨ c = '}') ∧ c ≠ '"' ∧ c ≠ '\'' ∧ c ≠ ';'

instance (c : Char) : Decidable (Plain c) := inferInstanceAs (Decidable (_ ∧ _))

theorem Lev.fold : ∀ {t : List Char} {p : Spot} {n : Nat}, Lev p n t → t.foldl Spot.next p = .code
  | [], _, _, h => h.1
  | c :: t, p, n, h => by
    rw [List.foldl_cons]
    have code : Lev .code n (c :: t) → t.foldl Spot.next (Spot.next .code c) = .code := by
      intro h
      simp only [Lev] at h
      split at h
      · rename_i hc
        have : Spot.next .code c = .code := by rcases hc with rfl | rfl | rfl <;> rfl
        rw [this]
        exact h.fold
      · split at h
        · rename_i hc
          have : Spot.next .code c = .code := by rcases hc with rfl | rfl | rfl <;> rfl
          rw [this]
          exact h.2.fold
        · exact h.fold
    cases p with
    | code => exact code h
    | _ => exact Lev.fold (n := n) h

theorem Lev.outside {n : Nat} {t : List Char} (h : Closes n t) : Outside t := h.fold

theorem lev_plain {c : Char} (h : Plain c) (n : Nat) (t : List Char) : Closes n (c :: t) ↔ Closes n t := by
  obtain ⟨h1, h2, h3, h4, h5⟩ := h
  have : Spot.next .code c = .code := by simp [Spot.next, h3, h4, h5]
  unfold Closes
  rw [Lev, if_neg h1, if_neg h2, this]

theorem lev_plains {a : List Char} (h : ∀ c ∈ a, Plain c) (n : Nat) (t : List Char) : Closes n (a ++ t) ↔ Closes n t := by
  induction a with
  | nil => exact Iff.rfl
  | cons c a ih => rw [List.cons_append, lev_plain (h c (.head _)), ih fun d hd => h d (.tail _ hd)]

theorem Blank.plain {c : Char} (h : Blank c) : Plain c := by rcases h with rfl | rfl | rfl | rfl <;> decide

theorem lev_comment {l : List Char} (h : ∀ c ∈ l, c ≠ '\n') (n : Nat) (t : List Char) :
    Lev .comment n (l ++ '\n' :: t) ↔ Closes n t := by
  induction l with
  | nil => exact Iff.rfl
  | cons c l ih =>
    rw [List.cons_append, Lev, show Spot.next .comment c = .comment by simp [Spot.next, h c (.head _)]]
    · exact ih fun d hd => h d (.tail _ hd)
    · simp

theorem WS.lev {w : List Char} (h : WS w) (n : Nat) (t : List Char) : Closes n (w ++ t) ↔ Closes n t := by
  induction h with
  | nil => exact Iff.rfl
  | blank hc _ ih => rw [List.cons_append, lev_plain hc.plain, ih]
  | @comment l w hl _ ih =>
    have : Closes n (';' :: l ++ '\n' :: w ++ t) ↔ Lev .comment n (l ++ '\n' :: (w ++ t)) := by
      simp [Closes, Lev, Spot.next]
    rw [this, lev_comment (fun c hc => (hl c hc).2), ih]
  | @commentCr l w hl _ ih =>
    have : Closes n (';' :: l ++ '\r' :: '\n' :: w ++ t) ↔ Lev .comment n ((l ++ ['\r']) ++ '\n' :: (w ++ t)) := by
      simp [Closes, Lev, Spot.next]
    rw [this, lev_comment, ih]
    intro c hc
    rcases List.mem_append.1 hc with hc | hc
    · exact (hl c hc).2
    · simp at hc
      subst hc
      decide

theorem lev_nil {n : Nat} (h : Closes n []) : n = 0 := h.2

/-! ## Tokens -/

def Tame' (f : Char → Bool) : Prop := ∀ c, f c = true → Plain c ∧ ¬ Blank c

theorem Tame'.tame {f : Char → Bool} (h : Tame' f) : Tame f := fun c hc => by
  obtain ⟨⟨_, _, h3, h4, h5⟩, hb⟩ := h c hc
  exact ⟨h3, h4, h5, hb⟩

section
variable {n : Nat} {r r' : List Char} {V : Bool} {f : Char → Bool}

theorem takeWhile_lev (hr : n = 0 → Apart r) (hf : Tame' f) : ∀ {t : List Char}, Closes n t →
    (t ++ r).takeWhile f = t.takeWhile f ∧ (t ++ r).dropWhile f = t.dropWhile f ++ r ∧ Closes n (t.dropWhile f)
  | [], h => by
    have hr := hr (lev_nil h)
    have := takeWhile_gap hr hf.tame []
    exact ⟨this.1, this.2, h⟩
  | c :: t, h => by
    cases hc : f c with
    | true =>
      have := takeWhile_lev hr hf ((lev_plain (hf c hc).1 n t).1 h)
      simp [hc, this]
    | false =>
      simp [hc]
      exact h

variable (hr : n = 0 → Apart r) (hr' : n = 0 → Apart r')
include hr hr'

theorem lev_satisfy (hf : Tame' f) : Sim (Closes n) (Closes n) r r' true V (satisfy f) := by
  intro t ht
  have none : ∀ {u : List Char}, Apart u → ∃ e, satisfy f u = .err e := by
    intro u hu
    cases u with
    | nil => exact ⟨_, rfl⟩
    | cons c u => exact ⟨_, by simp [satisfy, hu.head hf.tame rfl]; rfl⟩
  cases t with
  | nil =>
    obtain ⟨e, h⟩ := none (hr (lev_nil ht))
    obtain ⟨e', h'⟩ := none (hr' (lev_nil ht))
    rw [List.nil_append, List.nil_append, h, h']
    exact .err _ _
  | cons c t =>
    cases h : f c with
    | true =>
      simp only [List.cons_append, satisfy, h, if_true]
      exact .near t ((lev_plain (hf c h).1 n t).1 ht) fun _ => rfl
    | false =>
      simp only [List.cons_append, satisfy, h]
      exact .err _ _

/-- An opening bracket. -/
theorem lev_open {c : Char} (hc : c = '(' ∨ c = '[' ∨ c = '{') :
    Sim (Closes n) (Closes (n + 1)) r r' true V (chr c) := by
  intro t ht
  have none : ∀ {u : List Char}, Apart u → ∃ e, chr c u = .err e := by
    intro u hu
    cases u with
    | nil => exact ⟨_, rfl⟩
    | cons d u =>
      refine chr_close.2 d u ?_
      rintro rfl
      have := hu _ _ rfl
      revert this
      rcases hc with rfl | rfl | rfl <;> decide
  cases t with
  | nil =>
    obtain ⟨e, h⟩ := none (hr (lev_nil ht))
    obtain ⟨e', h'⟩ := none (hr' (lev_nil ht))
    rw [List.nil_append, List.nil_append, h, h']
    exact .err _ _
  | cons d t =>
    by_cases hd : d = c
    · subst hd
      rw [List.cons_append, List.cons_append, chr_close.1, chr_close.1]
      refine .near t ?_ fun _ => rfl
      rw [Closes, Lev, if_pos hc] at ht
      exact ht
    · obtain ⟨e, h⟩ := chr_close.2 d (t ++ r) hd
      obtain ⟨e', h'⟩ := chr_close.2 d (t ++ r') hd
      rw [List.cons_append, List.cons_append, h, h']
      exact .err _ _

omit hr hr' in
/-- A closing bracket. -/
theorem lev_close {c : Char} (hc : c = ')' ∨ c = ']' ∨ c = '}') :
    Sim (Closes (n + 1)) (Closes n) r r' true V (chr c) := by
  intro t ht
  cases t with
  | nil => have := lev_nil ht; omega
  | cons d t =>
    by_cases hd : d = c
    · subst hd
      rw [List.cons_append, List.cons_append, chr_close.1, chr_close.1]
      refine .near t ?_ fun _ => rfl
      rw [Closes, Lev, if_neg (by rcases hc with rfl | rfl | rfl <;> decide), if_pos hc] at ht
      exact ht.2
    · obtain ⟨e, h⟩ := chr_close.2 d (t ++ r) hd
      obtain ⟨e', h'⟩ := chr_close.2 d (t ++ r') hd
      rw [List.cons_append, List.cons_append, h, h']
      exact .err _ _

theorem lev_takeWhile0 (hf : Tame' f) : Sim (Closes n) (Closes n) r r' true V (takeWhile0 f) := by
  intro t ht
  obtain ⟨h1, h2, h3⟩ := takeWhile_lev hr hf ht
  obtain ⟨h4, h5, _⟩ := takeWhile_lev hr' hf ht
  simp only [takeWhile0, h1, h2, h4, h5]
  exact .near _ h3 fun _ => rfl

theorem lev_takeWhile1 (hf : Tame' f) : Sim (Closes n) (Closes n) r r' true V (takeWhile1 f) := by
  intro t ht
  obtain ⟨h1, h2, h3⟩ := takeWhile_lev hr hf ht
  obtain ⟨h4, h5, _⟩ := takeWhile_lev hr' hf ht
  simp only [takeWhile1, h1, h2, h4, h5]
  split
  · exact .err _ _
  · exact .near _ h3 fun _ => rfl

omit hr hr' in
/-- A tag with no blanks or brackets in it is in the text before the end or not there. -/
theorem tag_lev {s : String} (hs : ∀ c ∈ s.toList.dropLast, Plain c) (hb : ∀ c ∈ s.toList, c ≠ ';' ∧ ¬ Blank c)
    {t : List Char} (ht : Closes n t) :
    (∃ t1, t = s.toList ++ t1 ∧ ∀ r, tag s (t ++ r) = .ok (t1 ++ r) s.toList) ∨
      ∀ r, (n = 0 → Apart r) → ∃ e, tag s (t ++ r) = .err e := by
  have key : ∀ (l t : List Char), (∀ c ∈ l.dropLast, Plain c) → (∀ c ∈ l, c ≠ ';' ∧ ¬ Blank c) → Closes n t →
      (∃ t1, t = l ++ t1 ∧ ∀ r, stripPrefix l (t ++ r) = some (t1 ++ r)) ∨
        ∀ r, (n = 0 → Apart r) → stripPrefix l (t ++ r) = none := by
    intro l
    induction l with
    | nil => exact fun t _ _ _ => .inl ⟨t, rfl, fun r => rfl⟩
    | cons c l ih =>
      intro t hl hb ht
      cases t with
      | nil =>
        refine .inr fun r hr => ?_
        cases r with
        | nil => rfl
        | cons d r =>
          have : c ≠ d := by
            rintro rfl
            obtain ⟨h1, h2⟩ := hb c (.head _)
            rcases hr (lev_nil ht) c r rfl with h | h
            · exact h2 h
            · exact h1 h
          simp [stripPrefix, this]
      | cons d t =>
        by_cases hcd : c = d
        · subst hcd
          cases l with
          | nil => exact .inl ⟨t, rfl, fun r => by simp [stripPrefix]⟩
          | cons c' l =>
            rcases ih t (fun e he => hl e (by simp at he ⊢; exact .inr he)) (fun e he => hb e (.tail _ he))
              ((lev_plain (hl c (by simp)) n t).1 ht) with ⟨t1, rfl, h⟩ | h
            · exact .inl ⟨t1, rfl, fun r => by simpa [stripPrefix] using h r⟩
            · exact .inr fun r hr => by simpa [stripPrefix] using h r hr
        · exact .inr fun r hr => by simp [stripPrefix, hcd]
  rcases key s.toList t hs hb ht with ⟨t1, h, h'⟩ | h
  · exact .inl ⟨t1, h, fun r => by simp only [tag, h' r]⟩
  · exact .inr fun r hr => ⟨unparseable (t ++ r), by simp only [tag, h r hr]⟩

end

/-- The characters of a tag are tame. -/
def tameTag' (s : String) : Bool := s.toList.all fun c => decide (Plain c ∧ ¬ Blank c)

theorem tame'_oneOf {s : String} (h : tameTag' s = true) : Tame' fun c => s.toList.contains c := by
  intro c hc
  simp only [tameTag', List.all_eq_true, decide_eq_true_eq] at h
  exact h c (by simpa using hc)

theorem tame'_chr {d : Char} (h : Plain d ∧ ¬ Blank d) : Tame' (· == d) := by
  intro c hc
  have : c = d := by simpa using hc
  exact this ▸ h

theorem tame'_of {f : Char → Bool} (h : Tame f) (hb : f '(' = false ∧ f '[' = false ∧ f '{' = false ∧ f ')' = false ∧ f ']' = false ∧ f '}' = false) :
    Tame' f := by
  intro c hc
  obtain ⟨h1, h2, h3, h4⟩ := h c hc
  obtain ⟨b1, b2, b3, b4, b5, b6⟩ := hb
  refine ⟨⟨?_, ?_, h1, h2, h3⟩, h4⟩
  · rintro (rfl | rfl | rfl) <;> simp_all
  · rintro (rfl | rfl | rfl) <;> simp_all

theorem tame'_ealpha : Tame' ealphaChar := tame'_of tame_ealpha (by decide)
theorem tame'_digit : Tame' isDigit := tame'_of tame_digit (by decide)
theorem tame'_hexDigit : Tame' isHexDigit := tame'_of tame_hexDigit (by decide)

section
variable {n : Nat} {r r' : List Char} {V : Bool} (hr : n = 0 → Apart r) (hr' : n = 0 → Apart r')
include hr hr'

theorem lev_lit {s : String} (h : tameTag' s = true) : Sim (Closes n) (Closes n) r r' true V (tag s) := by
  simp only [tameTag', List.all_eq_true, decide_eq_true_eq] at h
  intro t ht
  rcases tag_lev (s := s) (fun c hc => (h c (List.dropLast_subset _ hc)).1)
    (fun c hc => ⟨(h c hc).1.2.2.2.2, (h c hc).2⟩) ht with ⟨t1, rfl, e⟩ | e
  · rw [e, e]
    exact .near t1 ((lev_plains (fun c hc => (h c hc).1) n t1).1 ht) fun _ => rfl
  · obtain ⟨e1, h1⟩ := e r hr
    obtain ⟨e2, h2⟩ := e r' hr'
    rw [h1, h2]
    exact .err _ _

theorem lev_chr {d : Char} (h : Plain d ∧ ¬ Blank d) : Sim (Closes n) (Closes n) r r' true V (chr d) :=
  lev_satisfy hr hr' (tame'_chr h)

theorem lev_oneOf {s : String} (h : tameTag' s = true) : Sim (Closes n) (Closes n) r r' true V (oneOfChars s) :=
  lev_satisfy hr hr' (tame'_oneOf h)

theorem lev_digit1 : Sim (Closes n) (Closes n) r r' true V digit1 := lev_takeWhile1 hr hr' tame'_digit
theorem lev_digit0 : Sim (Closes n) (Closes n) r r' true V digit0 := lev_takeWhile0 hr hr' tame'_digit

theorem lev_ident : Sim (Closes n) (Closes n) r r' true V ident := by
  have tail : Sim (Closes n) (Closes n) r r' true false identTail :=
    (Sim.preceded (((lev_oneOf hr hr' (by decide)).many1 (fun h => by cases h)).opt)
      ((lev_takeWhile1 hr hr' tame'_ealpha).alt (lev_digit1 hr hr'))).recognize
  exact (Sim.preceded (lev_takeWhile1 hr hr' tame'_ealpha) (tail.many0 fun h => by cases h)).recognize

theorem lev_uint : Sim (Closes n) (Closes n) r r' true V uint := by
  refine .alt (.pmap _ (.preceded (lev_lit hr hr' (by decide)) (lev_takeWhile1 hr hr' tame'_hexDigit)))
    (.alt (.pmap _ (.preceded (lev_lit hr hr' (by decide))
      (Sim.recognize ((lev_oneOf hr hr' (by decide)).many1 fun h => by cases h))))
    (.pmap _ (.alt (lev_lit hr hr' (by decide)) (.recognize (.pair (lev_oneOf hr hr' (by decide)) (lev_digit0 hr hr'))))))

theorem lev_uintU64 : Sim (Closes n) (Closes n) r r' true V uintU64 := .mapResFail _ (lev_uint hr hr')

theorem lev_floatOrInt (x : ParseExt) : Sim (Closes n) (Closes n) r r' true V (floatOrInt x) := by
  refine .mapResFail _ (.recognizer (.pair (.pmap _ (.pair (.opt (lev_chr hr hr' (by decide))) (lev_uint hr hr')))
    (.pair (.opt (.recognize (.pair (lev_chr hr hr' (by decide)) (lev_digit1 hr hr'))))
      (.opt (.recognize (.pair (lev_chr hr hr' (by decide)) (.pair (.opt (lev_oneOf hr hr' (by decide))) (lev_digit1 hr hr'))))))))

end

/-- Behind a literal the brackets are as before it. -/
theorem strEnd_lev {f : Char → Bool} {q : Char} (hq : f q = false) (hb : f '\\' = false) (hqb : q ≠ '\\') {lit esc : Spot}
    (hlit : ∀ c, Spot.next lit c = if c = q then .code else if c = '\\' then esc else lit)
    (hesc : ∀ c, Spot.next esc c = lit) (h1 : lit ≠ .code) (h2 : esc ≠ .code) (n : Nat) :
    ∀ t : List Char, Lev lit n t → ∀ u, strEnd f t = q :: u → Closes n u := by
  have step : ∀ {p : Spot} (c t), p ≠ .code → (Lev p n (c :: t) ↔ Lev (p.next c) n t) := by
    intro p c t hp
    cases p with
    | code => exact absurd rfl hp
    | _ => exact Iff.rfl
  intro t
  generalize hk : t.length = k
  induction k using Nat.strongRecOn generalizing t with
  | _ k ih =>
    intro h u e
    match t, hk, h, e with
    | [], _, _, e => simp [strEnd] at e
    | [c], _, h, e =>
      rw [strEnd] at e
      split at e
      · cases e
      · cases e
        rw [step _ _ h1, hlit, if_pos rfl] at h
        exact h
    | c :: d :: t, hk, h, e =>
      rw [strEnd] at e
      rw [step _ _ h1, hlit] at h
      by_cases hc : f c = true
      · rw [if_pos hc] at e
        rw [if_neg (by rintro rfl; rw [hq] at hc; cases hc), if_neg (by rintro rfl; rw [hb] at hc; cases hc)] at h
        exact ih _ (by rw [← hk]; simp) _ rfl h u e
      · rw [if_neg hc] at e
        by_cases hcb : c = '\\'
        · rw [if_pos hcb] at e
          rw [if_neg (by rintro rfl; exact hqb hcb), if_pos hcb, step _ _ h2, hesc] at h
          exact ih _ (by rw [← hk]; simp; omega) _ rfl h u e
        · rw [if_neg hcb] at e
          cases e
          rw [if_pos rfl] at h
          exact h

/-- A literal from behind the opening quote on. -/
theorem lev_closed {α : Type} {n : Nat} {r r' : List Char} {V : Bool} {f : Char → Bool} {q : Char} {close : P α} {x : α}
    (hc1 : ∀ i, close (q :: i) = .ok i x) (hc2 : ∀ c i, c ≠ q → ∃ e, close (c :: i) = .err e) (hq : f q = false)
    (hb : f '\\' = false) (hqb : q ≠ '\\') {lit esc : Spot}
    (hlit : ∀ c, Spot.next lit c = if c = q then .code else if c = '\\' then esc else lit)
    (hesc : ∀ c, Spot.next esc c = lit) (h1 : lit ≠ .code) (h2 : esc ≠ .code) {t : List Char} (ht : Lev lit n t) :
    Rel (Closes n) r r' true V (terminated (recognize (many0 (alt (takeWhile1 f) sesc))) close (t ++ r))
      (terminated (recognize (many0 (alt (takeWhile1 f) sesc))) close (t ++ r')) := by
  obtain ⟨c, u, e1, e2, _⟩ := strEnd_gap hq hb hqb hlit hesc h1 h2 t ht.fold
  simp only [terminated, chars_spec hb, PR.bind, e2, List.cons_append]
  by_cases hc : c = q
  · subst hc
    rw [hc1, hc1]
    dsimp only
    rw [show c :: (u ++ r) = (c :: u) ++ r from rfl, show c :: (u ++ r') = (c :: u) ++ r' from rfl, take_gap, take_gap]
    exact .near u (strEnd_lev hq hb hqb hlit hesc h1 h2 n t ht u e1) fun _ => rfl
  · obtain ⟨e, h⟩ := hc2 c (u ++ r) hc
    obtain ⟨e', h'⟩ := hc2 c (u ++ r') hc
    rw [h, h']
    exact .err _ _

section
variable {n : Nat} {r r' : List Char} {V : Bool} (hr : n = 0 → Apart r) (hr' : n = 0 → Apart r')
include hr hr'

theorem lev_textLiteral (x : ParseExt) : Sim (Closes n) (Closes n) r r' true V (textLiteral x) := by
  refine .mapResFail _ fun t ht => ?_
  have none : ∀ {u : List Char}, Apart u → ∃ e, chr '"' u = .err e := by
    intro u hu
    cases u with
    | nil => exact ⟨_, rfl⟩
    | cons c u =>
      refine chr_close.2 c u ?_
      rintro rfl
      have := hu _ _ rfl
      revert this
      decide
  simp only [delimited, preceded]
  cases t with
  | nil =>
    obtain ⟨e, h⟩ := none (hr (lev_nil ht))
    obtain ⟨e', h'⟩ := none (hr' (lev_nil ht))
    rw [List.nil_append, List.nil_append, h, h']
    exact .err _ _
  | cons c t =>
    by_cases hc : c = '"'
    · subst hc
      rw [List.cons_append, List.cons_append, chr_close.1, chr_close.1]
      exact lev_closed (lit := .text) (esc := .textEsc) chr_close.1 chr_close.2 (by decide) (by decide) (by decide)
        (fun c => rfl) (fun c => rfl) (by decide) (by decide) ht
    · obtain ⟨e, h⟩ := chr_close.2 c (t ++ r) hc
      obtain ⟨e', h'⟩ := chr_close.2 c (t ++ r') hc
      rw [List.cons_append, List.cons_append, h, h']
      exact .err _ _

theorem lev_bytes {β : Type} {s : String} {l : List Char} {close : P β} {b : β} (hs : s.toList = l ++ ['\''])
    (hl : ∀ c ∈ l, Plain c ∧ ¬ Blank c) (hc1 : ∀ i, close ('\'' :: i) = .ok i b)
    (hc2 : ∀ c i, c ≠ '\'' → ∃ e, close (c :: i) = .err e) :
    Sim (Closes n) (Closes n) r r' true V (delimited (tag s) bchar close) := by
  intro t ht
  simp only [delimited, preceded]
  rcases tag_lev (s := s) (fun c hc => (hl c (by rw [hs] at hc; simpa using hc)).1) (fun c hc => by
    rw [hs] at hc
    rcases List.mem_append.1 hc with hc | hc
    · exact ⟨(hl c hc).1.2.2.2.2, (hl c hc).2⟩
    · have : c = '\'' := by simpa using hc
      subst this
      decide) ht with ⟨t1, rfl, h⟩ | h
  · rw [h, h]
    refine lev_closed (lit := .bytes) (esc := .bytesEsc) hc1 hc2 (by decide) (by decide) (by decide) (fun c => rfl)
      (fun c => rfl) (by decide) (by decide) ?_
    rw [hs, List.append_assoc, lev_plains fun c hc => (hl c hc).1] at ht
    exact ht
  · obtain ⟨e, h1⟩ := h r hr
    obtain ⟨e', h2⟩ := h r' hr'
    rw [h1, h2]
    exact .err _ _

theorem lev_bytestring (x : ParseExt) : Sim (Closes n) (Closes n) r r' true V (bytestring x) :=
  .alt (.pmap _ (.mapResFail _ (lev_bytes hr hr' (l := []) (by decide) (by decide) tag_close.1 tag_close.2)))
    (.alt (.mapResFail _ (lev_bytes hr hr' (l := ['h']) (by decide) (by decide) tag_close.1 tag_close.2))
      (.mapResFail _ (lev_bytes hr hr' (l := ['b', '6', '4']) (by decide) (by decide) chr_close.1 chr_close.2)))

theorem lev_value (x : ParseExt) : Sim (Closes n) (Closes n) r r' true V (value x) :=
  .alt (lev_floatOrInt hr hr' x) (.alt (.pmap _ (lev_textLiteral hr hr' x)) (.pmap _ (lev_bytestring hr hr' x)))

theorem lev_occur : Sim (Closes n) (Closes n) r r' true V occur :=
  .alt (.mapRes _ (.pair (.opt (lev_uintU64 hr hr')) (.pair (lev_lit hr hr' (by decide)) (.opt (lev_uintU64 hr hr')))))
    (.alt (.pmap _ (lev_lit hr hr' (by decide))) (.pmap _ (lev_lit hr hr' (by decide))))

end

/-! ## Inside of brackets -/

section
variable {r r' : List Char} {V : Bool}

/-- Inside of brackets, white space ends inside of them. -/
theorem lev_ws {n : Nat} : Sim (Closes (n + 1)) (Closes (n + 1)) r r' true false ws := by
  intro t ht
  rcases ht.outside.white with hw | ⟨w, v, rfl, hw, hv, hs⟩
  · have := (hw.lev (n + 1) []).1 (by simpa using ht)
    have := lev_nil this
    omega
  · obtain ⟨a, e1⟩ := (hw.to (hs r)).ws
    obtain ⟨b, e2⟩ := (hw.to (hs r')).ws
    rw [List.append_assoc, List.append_assoc, e1, e2]
    exact .near v ((hw.lev (n + 1) v).1 ht) fun h => by cases h

/-- What the parsers do inside of brackets. -/
abbrev Inside (r r' : List Char) {α : Type} (V : Bool) (p : P α) : Prop :=
  ∀ n, Sim (Closes (n + 1)) (Closes (n + 1)) r r' true V p

theorem in_lit {s : String} (h : tameTag' s = true) : Inside r r' V (tag s) := fun _ => lev_lit (fun h => by cases h) (fun h => by cases h) h
theorem in_ident : Inside r r' V ident := fun _ => lev_ident (fun h => by cases h) (fun h => by cases h)

theorem in_slash : Inside r r' false slash := fun n => lev_ws.delimited (in_lit (by decide) n) lev_ws
theorem in_comma : Inside r r' false (pair (tag ",") ws) := fun n => (in_lit (by decide) n).pair lev_ws
theorem in_optcom : Inside r r' V optcom := by
  intro n
  have : Sim (Closes (n + 1)) (Closes (n + 1)) r r' true false (pair ws (opt (pair (tag ",") ws))) :=
    lev_ws.pair (in_comma n).opt
  exact this.const ()

theorem no_far {P : Prop} : true = false → P := fun h => by cases h

/-- What is needed of the recursive parsers. -/
structure PRec.Inside (r r' : List Char) (R : PRec) : Prop where
  type2 : Cddl.Inside r r' true R.type2
  group : Cddl.Inside r r' true R.group

variable {R : PRec} (h : R.Inside r r')
include h

theorem in_type1 : Inside r r' true (type1 R) := by
  intro n
  refine .pmap _ ((h.type2 n).pair (.opt (lev_ws.preceded (.pair ?_ (lev_ws.preceded (h.type2 n))))))
  exact .alt (in_lit (by decide) n) (.alt (in_lit (by decide) n) ((in_lit (by decide) n).preceded (in_ident n)))

theorem in_ty : Inside r r' true (ty R) := fun n => (in_type1 h n).sepList1 (in_slash n) no_far

theorem in_nameGeneric : Inside r r' true (nameGenericP R) := by
  intro n
  refine .pmap _ ((in_ident n).pair (.opt (.delimited ?_ (.sepList1 ?_ (in_comma n) no_far) (in_lit (by decide) n))))
  · exact (in_lit (by decide) n).pair lev_ws
  · exact (in_type1 h n).terminated lev_ws

omit h in
/-- Brackets, at every level. -/
theorem lev_brackets {α : Type} {n : Nat} {c d : Char} {p : P α} (hc : c = '(' ∨ c = '[' ∨ c = '{')
    (hd : d = ')' ∨ d = ']' ∨ d = '}') (hr : n = 0 → Apart r) (hr' : n = 0 → Apart r') (hp : Inside r r' true p) :
    Sim (Closes n) (Closes n) r r' true true (delimited (chr c) (delimited ws p ws) (chr d)) :=
  (lev_open hr hr' hc).delimited (lev_ws.delimited (hp n) lev_ws) (lev_close hd)

omit h in
theorem in_brackets {α : Type} {c d : Char} {p : P α} (hc : c = '(' ∨ c = '[' ∨ c = '{')
    (hd : d = ')' ∨ d = ']' ∨ d = '}') (hp : Inside r r' true p) :
    Inside r r' true (delimited (chr c) (delimited ws p ws) (chr d)) := fun _ =>
  lev_brackets hc hd (fun h => by cases h) (fun h => by cases h) hp

theorem in_memberkeyTail : Inside r r' true (memberkeyTail R) := fun n =>
  .preceded (.pair (in_lit (by decide) n) lev_ws) (in_ty h n)

theorem in_arrowTail : Inside r r' true (arrowTail R) := fun n =>
  .pair (.opt ((in_lit (by decide) n).terminated lev_ws)) ((in_lit (by decide) n).preceded (lev_ws.preceded (in_ty h n)))

theorem in_memberRest (first : Ty1) : Inside r r' true (memberRest R first) := fun n t ht =>
  (in_arrowTail h n t ht).ifOk (fun t1 a b ht e => .near t1 ht fun _ => by rw [e rfl]) no_far
    ((((in_slash n).preceded (in_type1 h n)).many0 no_far t ht).ifOk
      (fun t1 a b ht e => .near t1 ht fun _ => by rw [e rfl]) no_far (.err _ _))

theorem in_grpentMember : Inside r r' true (grpentMember R) := fun n t ht => by
  refine Rel.bind ((in_type1 h n).terminated lev_ws t ht) (fun t1 a b ht e => ?_) no_far
  rw [e rfl]
  have tail := (in_memberkeyTail h n t1 ht).ifOk (W := true) (f := fun i'' t => assembleBasicMember b t i'')
    (g := fun i'' t => assembleBasicMember b t i'')
    (fun t1 c d ht e => by
      rw [e rfl]
      simp only [assembleBasicMember]
      split
      · exact .near t1 ht fun _ => rfl
      · split
        · exact .near t1 ht fun _ => rfl
        · exact .fail _ _
      · exact .panic)
    no_far (in_memberRest h b n t1 ht)
  split
  · exact tail
  · exact tail
  · exact in_memberRest h b n t1 ht

theorem in_grpent : Inside r r' true (grpent R) := fun n =>
  .pmap _ (.pair (.opt ((lev_occur (fun h => by cases h) (fun h => by cases h)).terminated lev_ws)) (.alt (in_grpentMember h n)
    (.alt (.pmap _ (in_ident n)) (.pmap _ (in_brackets (by decide) (by decide) h.group n)))))

theorem in_grpchoice : Inside r r' true (grpchoice R) := fun n =>
  .many0 ((in_grpent h n).terminated (in_optcom n)) no_far

theorem in_group : Inside r r' true (group R) := fun n =>
  .pmap _ ((in_grpchoice h n).pair (.many0 (.preceded (lev_ws.delimited (in_lit (by decide) n) lev_ws) (in_grpchoice h n)) no_far))

theorem in_type2 (x : ParseExt) : Inside r r' true (type2 x R) := fun n =>
  .alt (.pmap _ (lev_value (fun h => by cases h) (fun h => by cases h) x)) (.alt (.pmap _ (in_nameGeneric h n))
    (.alt (.pmap _ (in_brackets (by decide) (by decide) (in_ty h) n))
    (.alt (.pmap _ (in_brackets (by decide) (by decide) h.group n)) (.alt (.pmap _ (in_brackets (by decide) (by decide) h.group n))
    (.alt (.pmap _ ((in_lit (by decide) n).preceded (lev_ws.preceded (in_nameGeneric h n))))
    (.alt (.pmap _ ((in_lit (by decide) n).preceded (lev_ws.preceded (in_brackets (by decide) (by decide) h.group n))))
      (.pmap _ ((in_lit (by decide) n).preceded (lev_ws.preceded (in_nameGeneric h n))))))))))

end

theorem in_parsers (r r' : List Char) (x : ParseExt) : ∀ k, (parsers x k).Inside r r'
  | 0 => ⟨fun _ _ _ => .oofL _, fun _ _ _ => .oofL _⟩
  | k + 1 => ⟨in_type2 (in_parsers r r' x k) x, in_group (in_parsers r r' x k)⟩

end Cddl
