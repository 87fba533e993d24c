import Verif.Proofs.Gap

/-!
# What the parser makes of white space: tokens
-/

namespace Cddl

/-- Characters that begin neither white space nor a literal. -/
def Tame (f : Char → Bool) : Prop := ∀ c, f c = true → c ≠ '"' ∧ c ≠ '\'' ∧ c ≠ ';' ∧ ¬ Blank c

section
variable {r r' : List Char} {V : Bool} {f : Char → Bool}

theorem Outside.tail {c : Char} {t : List Char} (h : Outside (c :: t)) (hc : c ≠ '"' ∧ c ≠ '\'' ∧ c ≠ ';') : Outside t :=
  Outside.rest (a := [c]) h (foldl_next_code (by simpa using hc))

theorem Outside.drop {t : List Char} (hf : Tame f) (h : Outside t) : Outside (t.dropWhile f) := by
  have e := List.takeWhile_append_dropWhile (p := f) (l := t)
  rw [← e] at h
  refine h.rest (foldl_next_code fun c hc => ?_)
  obtain ⟨h1, h2, h3, _⟩ := hf c (mem_takeWhile hc)
  exact ⟨h1, h2, h3⟩

theorem Apart.head (hr : Apart r) (hf : Tame f) {c : Char} {t : List Char} (e : r = c :: t) : f c = false := by
  cases h : f c with
  | false => rfl
  | true =>
    obtain ⟨_, _, h3, h4⟩ := hf c h
    rcases hr c t e with h | h
    · exact absurd h h4
    · exact absurd h h3

theorem takeWhile_gap (hr : Apart r) (hf : Tame f) (t : List Char) :
    (t ++ r).takeWhile f = t.takeWhile f ∧ (t ++ r).dropWhile f = t.dropWhile f ++ r := by
  induction t with
  | nil =>
    cases r with
    | nil => simp
    | cons c u => simp [hr.head hf rfl]
  | cons c t ih =>
    cases h : f c with
    | true => simp [h, ih]
    | false => simp [h]

variable (hr : Apart r) (hr' : Apart r')
include hr hr'

theorem sim_satisfy (hf : Tame f) : Sim Outside Outside r r' true V (satisfy f) := by
  intro t ht
  have none : ∀ {u : List Char}, Apart u → ∃ e, satisfy f u = .err e := by
    intro u hu
    cases u with
    | nil => exact ⟨_, rfl⟩
    | cons c u => exact ⟨_, by simp [satisfy, hu.head hf rfl]; rfl⟩
  cases t with
  | nil =>
    obtain ⟨e, h⟩ := none hr
    obtain ⟨e', h'⟩ := none hr'
    rw [List.nil_append, List.nil_append, h, h']
    exact .err _ _
  | cons c t =>
    cases h : f c with
    | true =>
      simp only [List.cons_append, satisfy, h, if_true]
      obtain ⟨h1, h2, h3, _⟩ := hf c h
      exact .near t (ht.tail ⟨h1, h2, h3⟩) fun _ => rfl
    | false =>
      simp only [List.cons_append, satisfy, h]
      exact .err _ _

theorem sim_takeWhile0 (hf : Tame f) : Sim Outside Outside r r' true V (takeWhile0 f) := by
  intro t ht
  simp only [takeWhile0, (takeWhile_gap hr hf t).1, (takeWhile_gap hr hf t).2, (takeWhile_gap hr' hf t).1,
    (takeWhile_gap hr' hf t).2]
  exact .near _ (ht.drop hf) fun _ => rfl

theorem sim_takeWhile1 (hf : Tame f) : Sim Outside Outside r r' true V (takeWhile1 f) := by
  intro t ht
  simp only [takeWhile1, (takeWhile_gap hr hf t).1, (takeWhile_gap hr hf t).2, (takeWhile_gap hr' hf t).1,
    (takeWhile_gap hr' hf t).2]
  split
  · exact .err _ _
  · exact .near _ (ht.drop hf) fun _ => rfl

omit hr hr' in
/-- A tag with no blanks in it is in the text before the gap or not there. -/
theorem tag_gap {s : String} (hs : ∀ c ∈ s.toList, c ≠ ';' ∧ ¬ Blank c) (t : List Char) :
    (∃ t1, t = s.toList ++ t1 ∧ ∀ r, tag s (t ++ r) = .ok (t1 ++ r) s.toList) ∨ ∀ r, Apart r → ∃ e, tag s (t ++ r) = .err e := by
  have key : ∀ (l t : List Char), (∀ c ∈ l, c ≠ ';' ∧ ¬ Blank c) →
      (∃ t1, t = l ++ t1 ∧ ∀ r, stripPrefix l (t ++ r) = some (t1 ++ r)) ∨ ∀ r, Apart r → stripPrefix l (t ++ r) = none := by
    intro l
    induction l with
    | nil => exact fun t _ => .inl ⟨t, rfl, fun r => rfl⟩
    | cons c l ih =>
      intro t hl
      cases t with
      | nil =>
        refine .inr fun r hr => ?_
        cases r with
        | nil => rfl
        | cons d r =>
          have : c ≠ d := by
            rintro rfl
            obtain ⟨h1, h2⟩ := hl c (.head _)
            rcases hr c r rfl with h | h
            · exact h2 h
            · exact h1 h
          simp [stripPrefix, this]
      | cons d t =>
        by_cases hcd : c = d
        · subst hcd
          rcases ih t fun e he => hl e (.tail _ he) with ⟨t1, rfl, h⟩ | h
          · exact .inl ⟨t1, rfl, fun r => by simpa [stripPrefix] using h r⟩
          · exact .inr fun r hr => by simpa [stripPrefix] using h r hr
        · exact .inr fun r hr => by simp [stripPrefix, hcd]
  rcases key s.toList t hs with ⟨t1, h, h'⟩ | h
  · exact .inl ⟨t1, h, fun r => by simp only [tag, h' r]⟩
  · exact .inr fun r hr => ⟨unparseable (t ++ r), by simp only [tag, h r hr]⟩

theorem sim_tag {s : String} (hs : ∀ c ∈ s.toList, c ≠ '"' ∧ c ≠ '\'' ∧ c ≠ ';' ∧ ¬ Blank c) : Sim Outside Outside r r' true V (tag s) := by
  intro t ht
  rcases tag_gap (s := s) (fun c hc => ⟨(hs c hc).2.2.1, (hs c hc).2.2.2⟩) t with ⟨t1, rfl, h⟩ | h
  · rw [h, h]
    exact .near t1 (ht.rest (foldl_next_code fun c hc => ⟨(hs c hc).1, (hs c hc).2.1, (hs c hc).2.2.1⟩)) fun _ => rfl
  · obtain ⟨e, h1⟩ := h r hr
    obtain ⟨e', h2⟩ := h r' hr'
    rw [h1, h2]
    exact .err _ _

end

instance (c : Char) : Decidable (Blank c) := inferInstanceAs (Decidable (_ ∨ _ ∨ _ ∨ _))

/-- The characters of a tag are tame. -/
def tameTag (s : String) : Bool := s.toList.all fun c => decide (c ≠ '"' ∧ c ≠ '\'' ∧ c ≠ ';' ∧ ¬ Blank c)

theorem tame_ealpha : Tame ealphaChar := by
  intro c h
  rw [ealphaChar_iff] at h
  refine ⟨?_, ?_, ?_, ?_⟩
  · rintro rfl; revert h; unfold EAlpha; decide
  · rintro rfl; revert h; unfold EAlpha; decide
  · rintro rfl; revert h; unfold EAlpha; decide
  · rintro (rfl | rfl | rfl | rfl) <;> revert h <;> unfold EAlpha <;> decide

theorem tame_digit : Tame isDigit := by
  intro c h
  refine ⟨?_, ?_, ?_, ?_⟩
  · rintro rfl; revert h; decide
  · rintro rfl; revert h; decide
  · rintro rfl; revert h; decide
  · rintro (rfl | rfl | rfl | rfl) <;> revert h <;> decide

theorem tame_hexDigit : Tame isHexDigit := by
  intro c h
  refine ⟨?_, ?_, ?_, ?_⟩
  · rintro rfl; revert h; decide
  · rintro rfl; revert h; decide
  · rintro rfl; revert h; decide
  · rintro (rfl | rfl | rfl | rfl) <;> revert h <;> decide

theorem tame_oneOf {s : String} (h : tameTag s = true) : Tame fun c => s.toList.contains c := by
  intro c hc
  simp only [tameTag, List.all_eq_true, decide_eq_true_eq] at h
  exact h c (by simpa using hc)

theorem tame_chr {d : Char} (h : d ≠ '"' ∧ d ≠ '\'' ∧ d ≠ ';' ∧ ¬ Blank d) : Tame (· == d) := by
  intro c hc
  have : c = d := by simpa using hc
  exact this ▸ h

section
variable {r r' : List Char} {V : Bool} (hr : Apart r) (hr' : Apart r')
include hr hr'

theorem sim_lit {s : String} (h : tameTag s = true) : Sim Outside Outside r r' true V (tag s) := by
  simp only [tameTag, List.all_eq_true, decide_eq_true_eq] at h
  exact sim_tag hr hr' h

theorem sim_chr {d : Char} (h : d ≠ '"' ∧ d ≠ '\'' ∧ d ≠ ';' ∧ ¬ Blank d) : Sim Outside Outside r r' true V (chr d) :=
  sim_satisfy hr hr' (tame_chr h)

theorem sim_oneOf {s : String} (h : tameTag s = true) : Sim Outside Outside r r' true V (oneOfChars s) :=
  sim_satisfy hr hr' (tame_oneOf h)

theorem sim_digit1 : Sim Outside Outside r r' true V digit1 := sim_takeWhile1 hr hr' tame_digit
theorem sim_digit0 : Sim Outside Outside r r' true V digit0 := sim_takeWhile0 hr hr' tame_digit

theorem sim_ident : Sim Outside Outside r r' true V ident := by
  have tail : Sim Outside Outside r r' true false identTail :=
    (Sim.preceded (((sim_oneOf hr hr' (by decide)).many1 (fun h => by cases h)).opt)
      ((sim_takeWhile1 hr hr' tame_ealpha).alt (sim_digit1 hr hr'))).recognize
  exact (Sim.preceded (sim_takeWhile1 hr hr' tame_ealpha) (tail.many0 fun h => by cases h)).recognize

theorem sim_uint : Sim Outside Outside r r' true V uint := by
  refine .alt (.pmap _ (.preceded (sim_lit hr hr' (by decide)) (sim_takeWhile1 hr hr' tame_hexDigit)))
    (.alt (.pmap _ (.preceded (sim_lit hr hr' (by decide))
      (Sim.recognize ((sim_oneOf hr hr' (by decide)).many1 fun h => by cases h))))
    (.pmap _ (.alt (sim_lit hr hr' (by decide)) (.recognize (.pair (sim_oneOf hr hr' (by decide)) (sim_digit0 hr hr'))))))

theorem sim_uintU64 : Sim Outside Outside r r' true V uintU64 := .mapResFail _ (sim_uint hr hr')

theorem sim_floatOrInt (x : ParseExt) : Sim Outside Outside r r' true V (floatOrInt x) := by
  refine .mapResFail _ (.recognizer (.pair (.pmap _ (.pair (.opt (sim_chr hr hr' (by decide))) (sim_uint hr hr')))
    (.pair (.opt (.recognize (.pair (sim_chr hr hr' (by decide)) (sim_digit1 hr hr'))))
      (.opt (.recognize (.pair (sim_chr hr hr' (by decide)) (.pair (.opt (sim_oneOf hr hr' (by decide))) (sim_digit1 hr hr'))))))))

end

/-! ## Literals -/

/-- What is left of the text behind the characters of a literal. -/
def strEnd (f : Char → Bool) : List Char → List Char
  | [] => []
  | [c] => if f c then [] else [c]
  | c :: d :: i => if f c then strEnd f (d :: i) else if c = '\\' then strEnd f i else c :: d :: i
termination_by i => i.length

theorem strEnd_cons {f : Char → Bool} {c : Char} (h : f c = true) (i : List Char) : strEnd f (c :: i) = strEnd f i := by
  cases i with
  | nil => simp [strEnd, h]
  | cons d i => rw [strEnd, if_pos h]

theorem strEnd_drop {f : Char → Bool} (i : List Char) : strEnd f (i.dropWhile f) = strEnd f i := by
  induction i with
  | nil => rfl
  | cons c i ih =>
    cases h : f c with
    | true => rw [strEnd_cons h, List.dropWhile_cons_of_pos h, ih]
    | false => rw [List.dropWhile_cons_of_neg (by simp [h])]

theorem strEnd_length {f : Char → Bool} : ∀ i : List Char, (strEnd f i).length ≤ i.length
  | [] => by simp [strEnd]
  | [c] => by
    rw [strEnd]
    split <;> simp
  | c :: d :: i => by
    rw [strEnd]
    have := strEnd_length (f := f) (d :: i)
    have := strEnd_length (f := f) i
    split
    · simp at *; omega
    · split
      · simp at *; omega
      · simp
termination_by i => i.length

theorem chars_loop {f : Char → Bool} (hf : f '\\' = false) : ∀ (k : Nat) (i : List Char), i.length < k →
    ∃ as, many0Loop (alt (takeWhile1 f) sesc) k i = .ok (strEnd f i) as := by
  intro k
  induction k with
  | zero => intro i h; omega
  | succ k ih =>
    intro i hk
    simp only [many0Loop, alt]
    cases ht : i.takeWhile f with
    | nil =>
      have e1 : takeWhile1 f i = .err (unparseable i) := by simp only [takeWhile1, ht]
      rw [e1]
      dsimp only
      cases i with
      | nil => exact ⟨[], by simp [sesc, preceded, chr, satisfy, strEnd]⟩
      | cons c i =>
        have hc : f c = false := by
          cases h : f c with
          | false => rfl
          | true => rw [List.takeWhile_cons_of_pos h] at ht; cases ht
        by_cases hb : c = '\\'
        · subst hb
          cases i with
          | nil => exact ⟨[], by simp [sesc, preceded, chr, satisfy, recognize, anychar, strEnd, hf]⟩
          | cons d i =>
            have e2 : sesc ('\\' :: d :: i) = .ok i [d] := by
              simp [sesc, preceded, chr, satisfy, recognize, anychar]
            rw [e2]
            dsimp only
            rw [if_neg (by simp; omega)]
            obtain ⟨as, h⟩ := ih i (by simp at hk; omega)
            exact ⟨[d] :: as, by rw [h, strEnd, if_neg (by simp [hf]), if_pos rfl]; rfl⟩
        · have e2 : sesc (c :: i) = .err (unparseable (c :: i)) := by simp [sesc, preceded, chr, satisfy, hb]
          rw [e2]
          refine ⟨[], ?_⟩
          cases i with
          | nil => simp [strEnd, hc]
          | cons d i => rw [strEnd, if_neg (by simp [hc]), if_neg hb]
    | cons c s =>
      have e1 : takeWhile1 f i = .ok (i.dropWhile f) (c :: s) := by simp only [takeWhile1, ht]
      rw [e1]
      dsimp only
      have hl : (i.dropWhile f).length < i.length := by
        have := congrArg List.length (List.takeWhile_append_dropWhile (p := f) (l := i))
        rw [ht] at this
        simp at this
        omega
      rw [if_neg (by omega)]
      obtain ⟨as, h⟩ := ih (i.dropWhile f) (by omega)
      exact ⟨(c :: s) :: as, by rw [h, strEnd_drop]; rfl⟩

/-- `schar` and `bchar`. -/
theorem chars_spec {f : Char → Bool} (hf : f '\\' = false) (i : List Char) :
    recognize (many0 (alt (takeWhile1 f) sesc)) i = .ok (strEnd f i) (i.take (i.length - (strEnd f i).length)) := by
  obtain ⟨as, h⟩ := chars_loop hf (i.length + 1) i (by omega)
  simp only [recognize, many0, h, PR.bind]

/-- In a literal that is closed before the gap, the characters end before the gap.  `lit` and `esc` are the places in such
a literal and `q` is its quote. -/
theorem strEnd_gap {f : Char → Bool} {q : Char} (hq : f q = false) (hb : f '\\' = false) (hqb : q ≠ '\\') {lit esc : Spot}
    (hlit : ∀ c, Spot.next lit c = if c = q then .code else if c = '\\' then esc else lit)
    (hesc : ∀ c, Spot.next esc c = lit) (h1 : lit ≠ .code) (h2 : esc ≠ .code) :
    ∀ t : List Char, t.foldl Spot.next lit = .code →
      ∃ c u, strEnd f t = c :: u ∧ (∀ r, strEnd f (t ++ r) = c :: u ++ r) ∧ (c = q → Outside u)
  | [], h => absurd h h1
  | [c], h => by
    have hc : c = q := by
      rw [List.foldl_cons, hlit] at h
      split at h
      · assumption
      · split at h
        · exact absurd h h2
        · exact absurd h h1
    subst hc
    have e : ∀ r, strEnd f (c :: r) = c :: r := by
      intro r
      cases r with
      | nil => simp [strEnd, hq]
      | cons d r => rw [strEnd, if_neg (by simp [hq]), if_neg hqb]
    exact ⟨c, [], e [], fun r => e r, fun _ => rfl⟩
  | c :: d :: t, h => by
    by_cases hc : f c = true
    · have hcq : c ≠ q := by rintro rfl; rw [hq] at hc; cases hc
      by_cases hcb : c = '\\'
      · subst hcb
        rw [hb] at hc
        cases hc
      · rw [List.foldl_cons, hlit, if_neg hcq, if_neg hcb] at h
        obtain ⟨c', u, e1, e2, e3⟩ := strEnd_gap hq hb hqb hlit hesc h1 h2 (d :: t) h
        exact ⟨c', u, by rw [strEnd_cons hc, e1], fun r => by rw [List.cons_append, strEnd_cons hc, e2], e3⟩
    · by_cases hcb : c = '\\'
      · subst hcb
        rw [List.foldl_cons, hlit, if_neg (Ne.symm hqb), if_pos rfl, List.foldl_cons, hesc] at h
        obtain ⟨c', u, e1, e2, e3⟩ := strEnd_gap hq hb hqb hlit hesc h1 h2 t h
        exact ⟨c', u, by rw [strEnd, if_neg hc, if_pos rfl, e1],
          fun r => by rw [List.cons_append, List.cons_append, strEnd, if_neg hc, if_pos rfl, e2], e3⟩
      · refine ⟨c, d :: t, by rw [strEnd, if_neg hc, if_neg hcb],
          fun r => by rw [List.cons_append, List.cons_append, strEnd, if_neg hc, if_neg hcb], fun hcq => ?_⟩
        rw [List.foldl_cons, hlit, if_pos hcq] at h
        exact h
termination_by t => t.length

/-- A literal from behind the opening quote on. -/
theorem rel_closed {α : Type} {r r' : List Char} {V : Bool} {f : Char → Bool} {q : Char} {close : P α} {x : α}
    (hc1 : ∀ i, close (q :: i) = .ok i x) (hc2 : ∀ c i, c ≠ q → ∃ e, close (c :: i) = .err e) (hq : f q = false)
    (hb : f '\\' = false) (hqb : q ≠ '\\') {lit esc : Spot}
    (hlit : ∀ c, Spot.next lit c = if c = q then .code else if c = '\\' then esc else lit)
    (hesc : ∀ c, Spot.next esc c = lit) (h1 : lit ≠ .code) (h2 : esc ≠ .code) {t : List Char}
    (ht : t.foldl Spot.next lit = .code) :
    Rel Outside r r' true V (terminated (recognize (many0 (alt (takeWhile1 f) sesc))) close (t ++ r))
      (terminated (recognize (many0 (alt (takeWhile1 f) sesc))) close (t ++ r')) := by
  obtain ⟨c, u, e1, e2, e3⟩ := strEnd_gap hq hb hqb hlit hesc h1 h2 t ht
  simp only [terminated, chars_spec hb, PR.bind, e2, List.cons_append]
  by_cases hc : c = q
  · subst hc
    rw [hc1, hc1]
    dsimp only
    rw [show c :: (u ++ r) = (c :: u) ++ r from rfl, show c :: (u ++ r') = (c :: u) ++ r' from rfl, take_gap, take_gap]
    exact .near u (e3 rfl) fun _ => rfl
  · obtain ⟨e, h⟩ := hc2 c (u ++ r) hc
    obtain ⟨e', h'⟩ := hc2 c (u ++ r') hc
    rw [h, h']
    exact .err _ _

theorem chr_close {q : Char} : (∀ i, chr q (q :: i) = .ok i q) ∧ ∀ c i, c ≠ q → ∃ e, chr q (c :: i) = .err e :=
  ⟨fun i => chr_ok q i, fun c i h => ⟨unparseable (c :: i), by simp [chr, satisfy, h]⟩⟩

theorem tag_close : (∀ i, tag "'" ('\'' :: i) = .ok i ['\'']) ∧ ∀ c i, c ≠ '\'' → ∃ e, tag "'" (c :: i) = .err e :=
  ⟨fun i => rfl, fun c i h => ⟨unparseable (c :: i), by simp [tag, stripPrefix, Ne.symm h]⟩⟩

section
variable {r r' : List Char} {V : Bool} (hr : Apart r) (hr' : Apart r')
include hr hr'

theorem sim_textLiteral (x : ParseExt) : Sim Outside Outside r r' true V (textLiteral x) := by
  refine .mapResFail _ fun t ht => ?_
  have none : ∀ {u : List Char}, Apart u → ∃ e, chr '"' u = .err e := by
    intro u hu
    cases u with
    | nil => exact ⟨_, rfl⟩
    | cons c u =>
      refine chr_close.2 c u ?_
      rintro rfl
      have := hu _ _ rfl
      revert this
      decide
  simp only [delimited, preceded]
  cases t with
  | nil =>
    obtain ⟨e, h⟩ := none hr
    obtain ⟨e', h'⟩ := none hr'
    rw [List.nil_append, List.nil_append, h, h']
    exact .err _ _
  | cons c t =>
    by_cases hc : c = '"'
    · subst hc
      rw [List.cons_append, List.cons_append, chr_close.1, chr_close.1]
      exact rel_closed (lit := .text) (esc := .textEsc) chr_close.1 chr_close.2 (by decide) (by decide) (by decide)
        (fun c => rfl) (fun c => rfl) (by decide) (by decide) ht
    · obtain ⟨e, h⟩ := chr_close.2 c (t ++ r) hc
      obtain ⟨e', h'⟩ := chr_close.2 c (t ++ r') hc
      rw [List.cons_append, List.cons_append, h, h']
      exact .err _ _

theorem sim_bytes {β : Type} {s : String} {close : P β} {b : β} (hs : ∀ c ∈ s.toList, c ≠ ';' ∧ ¬ Blank c)
    (hp : s.toList.foldl Spot.next .code = .bytes) (hc1 : ∀ i, close ('\'' :: i) = .ok i b)
    (hc2 : ∀ c i, c ≠ '\'' → ∃ e, close (c :: i) = .err e) : Sim Outside Outside r r' true V (delimited (tag s) bchar close) := by
  intro t ht
  simp only [delimited, preceded]
  rcases tag_gap hs t with ⟨t1, rfl, h⟩ | h
  · rw [h, h]
    refine rel_closed (lit := .bytes) (esc := .bytesEsc) hc1 hc2 (by decide) (by decide) (by decide) (fun c => rfl)
      (fun c => rfl) (by decide) (by decide) ?_
    unfold Outside at ht
    rw [foldl_next_app, hp] at ht
    exact ht
  · obtain ⟨e, h1⟩ := h r hr
    obtain ⟨e', h2⟩ := h r' hr'
    rw [h1, h2]
    exact .err _ _

theorem sim_bytestring (x : ParseExt) : Sim Outside Outside r r' true V (bytestring x) :=
  .alt (.pmap _ (.mapResFail _ (sim_bytes hr hr' (by decide) (by decide) tag_close.1 tag_close.2)))
    (.alt (.mapResFail _ (sim_bytes hr hr' (by decide) (by decide) tag_close.1 tag_close.2))
      (.mapResFail _ (sim_bytes hr hr' (by decide) (by decide) chr_close.1 chr_close.2)))

theorem sim_value (x : ParseExt) : Sim Outside Outside r r' true V (value x) :=
  .alt (sim_floatOrInt hr hr' x) (.alt (.pmap _ (sim_textLiteral hr hr' x)) (.pmap _ (sim_bytestring hr hr' x)))

theorem sim_occur : Sim Outside Outside r r' true V occur :=
  .alt (.mapRes _ (.pair (.opt (sim_uintU64 hr hr')) (.pair (sim_lit hr hr' (by decide)) (.opt (sim_uintU64 hr hr')))))
    (.alt (.pmap _ (sim_lit hr hr' (by decide))) (.pmap _ (sim_lit hr hr' (by decide))))

end

end Cddl
