import Verif.Proofs.ParseTok

/-!
# Tokens: the lexical parsers read the texts of the grammar
-/

namespace Cddl

/-! ## Repetition without a budget -/

section
variable {α β : Type}

/-- A run of `many0`. -/
inductive Many (p : P α) : List Char → List α → List Char → Prop
  | stop {i e} : p i = .err e → Many p i [] i
  | step {i r a as r'} : p i = .ok r a → r.length < i.length → Many p r as r' → Many p i (a :: as) r'

theorem Many.loop {p : P α} {i as r} (h : Many p i as r) : ∀ k, i.length < k → many0Loop p k i = .ok r as := by
  induction h with
  | stop h =>
    intro k hk
    cases k with
    | zero => exact absurd hk (Nat.not_lt_zero _)
    | succ k => simp only [many0Loop, h]
  | step h hl _ ih =>
    intro k hk
    cases k with
    | zero => exact absurd hk (Nat.not_lt_zero _)
    | succ k =>
      simp only [many0Loop, h]
      rw [if_neg (by omega), ih k (by omega)]
      rfl

theorem Many.many0 {p : P α} {i as r} (h : Many p i as r) : many0 p i = .ok r as := h.loop _ (Nat.lt_succ_self _)

theorem Many.many1 {p : P α} {i r a as r'} (h1 : p i = .ok r a) (h : Many p r as r') :
    many1 p i = .ok r' (a :: as) := by
  simp only [Cddl.many1, h1, PR.bind, h.many0]

/-- A run of the loop of `separated_list1`. -/
inductive Seps (s : P β) (p : P α) : List Char → List α → List Char → Prop
  | stop {i e} : s i = .err e → Seps s p i [] i
  | stop' {i r b e} : s i = .ok r b → r.length < i.length → p r = .err e → Seps s p i [] i
  | step {i r b r' a as r''} : s i = .ok r b → r.length < i.length → p r = .ok r' a → r'.length ≤ r.length →
      Seps s p r' as r'' → Seps s p i (a :: as) r''

theorem Seps.loop {s : P β} {p : P α} {i as r} (h : Seps s p i as r) :
    ∀ k, i.length < k → sepLoop s p k i = .ok r as := by
  induction h with
  | stop h =>
    intro k hk
    cases k with
    | zero => exact absurd hk (Nat.not_lt_zero _)
    | succ k => simp only [sepLoop, h]
  | stop' h hl h' =>
    intro k hk
    cases k with
    | zero => exact absurd hk (Nat.not_lt_zero _)
    | succ k =>
      simp only [sepLoop, h]
      rw [if_neg (by omega), h']
  | step h hl h' hl' _ ih =>
    intro k hk
    cases k with
    | zero => exact absurd hk (Nat.not_lt_zero _)
    | succ k =>
      simp only [sepLoop, h]
      rw [if_neg (by omega), h']
      dsimp only
      rw [ih k (by omega)]
      rfl

theorem Seps.sepList1 {s : P β} {p : P α} {i r a as r'} (h1 : p i = .ok r a) (h : Seps s p r as r') :
    sepList1 s p i = .ok r' (a :: as) := by
  simp only [Cddl.sepList1, h1, PR.bind, h.loop _ (Nat.lt_succ_self _)]

theorem recognize_ok {p : P α} {s r : List Char} {a : α} (h : p (s ++ r) = .ok r a) :
    recognize p (s ++ r) = .ok r s := by
  simp only [recognize, h, PR.bind, take_consumed]

theorem recognizer_ok {p : P α} {s r : List Char} {a : α} (h : p (s ++ r) = .ok r a) :
    recognizer p (s ++ r) = .ok r (s, a) := by
  simp only [recognizer, h, PR.bind, take_consumed]

theorem tag_ok (t : String) (s r : List Char) (h : t.toList = s) : tag t (s ++ r) = .ok r s := by
  subst h
  simp only [tag, stripPrefix_eq_some.2 rfl]

theorem tag_err {t : String} {i : List Char} (h : ∀ r, i ≠ t.toList ++ r) : ∃ e, tag t i = .err e := by
  simp only [tag]
  cases hs : stripPrefix t.toList i with
  | none => exact ⟨_, rfl⟩
  | some r => exact absurd (stripPrefix_eq_some.1 hs) (h r)

theorem takeWhile_app {f : Char → Bool} (t : List Char) {r : List Char} (h : NotHead (fun c => f c = true) r) :
    (t ++ r).takeWhile f = t.takeWhile f ∧ (t ++ r).dropWhile f = t.dropWhile f ++ r := by
  induction t with
  | nil =>
    cases r with
    | nil => simp
    | cons c r =>
      have : f c = false := by simpa [NotHead] using h
      simp [this]
  | cons c t ih =>
    cases hc : f c <;> simp [hc, ih.1, ih.2]

theorem takeWhile_all {f : Char → Bool} {t r : List Char} (ht : ∀ c ∈ t, f c = true)
    (h : NotHead (fun c => f c = true) r) : (t ++ r).takeWhile f = t ∧ (t ++ r).dropWhile f = r := by
  induction t with
  | nil => have := takeWhile_app [] h; simpa using this
  | cons c t ih =>
    have := ih fun d hd => ht d (by simp [hd])
    simp [ht c (by simp), this.1, this.2]

theorem takeWhile1_ok {f : Char → Bool} {t r : List Char} (ht : ∀ c ∈ t, f c = true) (hne : t ≠ [])
    (h : NotHead (fun c => f c = true) r) : takeWhile1 f (t ++ r) = .ok r t := by
  simp only [takeWhile1, (takeWhile_all ht h).1, (takeWhile_all ht h).2]
  try (split <;> first | (exfalso; exact hne (by assumption)) | rfl)

theorem takeWhile1_err {f : Char → Bool} {r : List Char} (h : NotHead (fun c => f c = true) r) :
    ∃ e, takeWhile1 f r = .err e := by
  have := (takeWhile_all (t := []) (by simp) h).1
  simp only [List.nil_append] at this
  simp only [takeWhile1, this]
  exact ⟨_, rfl⟩

theorem chr_ok (c : Char) (i : List Char) : chr c (c :: i) = .ok i c := by simp [chr, satisfy]

theorem chr_err {c : Char} {i : List Char} (h : NotHead (fun d => d = c) i) : ∃ e, chr c i = .err e := by
  cases i with
  | nil => exact ⟨_, rfl⟩
  | cons d i =>
    have : ¬ d = c := h
    exact ⟨unparseable (d :: i), by simp [chr, satisfy, this]⟩

theorem NotHead.imp {p q : Char → Prop} {r : List Char} (h : NotHead p r) (hi : ∀ c, q c → p c) : NotHead q r := by
  cases r with
  | nil => trivial
  | cons c r => exact fun hq => h (hi c hq)

theorem NotHead.app {p : Char → Prop} {r s : List Char} (h : NotHead p r) (hs : r = [] → NotHead p s) :
    NotHead p (r ++ s) := by
  cases r with
  | nil => exact hs rfl
  | cons c r => exact h

end

/-! ## White space -/

/-- The text begins with neither a blank nor a comment. -/
def NoWs (u : List Char) : Prop := NotHead (fun c => Blank c ∨ c = ';') u

/-- `ws` on `i` leaves `u`. -/
def WsTo (i u : List Char) : Prop := ∃ as, Many (alt multispace1 comment) i as u

theorem WsTo.ws {i u : List Char} (h : WsTo i u) : ∃ t, ws i = .ok u t := by
  obtain ⟨as, h⟩ := h
  exact ⟨_, by simp only [Cddl.ws, recognize, h.many0, PR.bind]; rfl⟩

theorem wsTo_blank {c : Char} {i u : List Char} (hc : Blank c) (h : WsTo i u) : WsTo (c :: i) u := by
  obtain ⟨as, h⟩ := h
  have hcm := (isMultispace_iff c).2 hc
  rcases multispace1_cases i with ⟨⟨e, he⟩, hnb⟩ | ⟨s, r, rfl, hne, hb, hr, hok⟩
  · refine ⟨[c] :: as, .step (r := i) ?_ (by simp) h⟩
    have : multispace1 ([c] ++ i) = .ok i [c] :=
      takeWhile1_ok (by simpa using hcm) (by simp) (hnb.imp fun d hd => (isMultispace_iff d).1 hd)
    simp only [alt]
    rw [show c :: i = [c] ++ i from rfl, this]
  · have hitem : alt multispace1 comment (s ++ r) = .ok r s := by simp only [alt, hok]
    cases h with
    | stop h => rw [hitem] at h; cases h
    | step h hl hm =>
      rw [hitem] at h
      cases h
      refine ⟨(c :: s) :: _, .step (r := r) ?_ (by simp; omega) hm⟩
      have : multispace1 ((c :: s) ++ r) = .ok r (c :: s) := by
        refine takeWhile1_ok ?_ (by simp) (hr.imp fun d hd => (isMultispace_iff d).1 hd)
        intro d hd
        rcases List.mem_cons.1 hd with rfl | hd
        · exact hcm
        · exact (isMultispace_iff d).2 (hb d hd)
      simp only [alt]
      rw [show c :: (s ++ r) = (c :: s) ++ r from rfl, this]

theorem notLineEnding_ok {t r : List Char} (ht : ∀ c ∈ t, c ≠ '\r' ∧ c ≠ '\n')
    (hr : r = [] ∨ (∃ r', r = '\n' :: r') ∨ ∃ r', r = '\r' :: '\n' :: r') : notLineEnding (t ++ r) = .ok r t := by
  have h := takeWhile_all (f := fun c => c != '\r' && c != '\n') (t := t) (r := r)
    (by intro c hc; simpa using ht c hc) (by rcases hr with rfl | ⟨r', rfl⟩ | ⟨r', rfl⟩ <;> simp [NotHead])
  simp only [notLineEnding, h.1, h.2]
  rcases hr with rfl | ⟨r', rfl⟩ | ⟨r', rfl⟩ <;> rfl

theorem wsTo_comment {t r u : List Char} (ht : ∀ c ∈ t, c ≠ '\r' ∧ c ≠ '\n')
    (hr : r = [] ∨ (∃ r', r = '\n' :: r') ∨ ∃ r', r = '\r' :: '\n' :: r') (h : WsTo r u) : WsTo (';' :: t ++ r) u := by
  obtain ⟨as, h⟩ := h
  refine ⟨t :: as, .step (r := r) ?_ (by simp; omega) h⟩
  have h1 : ∃ e, multispace1 (';' :: t ++ r) = .err e := takeWhile1_err (by simp [NotHead]; decide)
  obtain ⟨e, h1⟩ := h1
  simp only [alt, h1, comment, preceded]
  rw [List.cons_append, chr_ok]
  simp only [PR.bind, notLineEnding_ok ht hr]

/-- White space in front changes nothing about where white space ends. -/
theorem WS.to {w i u : List Char} (hw : WS w) (h : WsTo i u) : WsTo (w ++ i) u := by
  induction hw with
  | nil => exact h
  | blank hc _ ih => exact wsTo_blank hc ih
  | comment ht _ ih =>
    rw [List.append_assoc]
    exact wsTo_comment ht (.inr (.inl ⟨_, rfl⟩)) (wsTo_blank (.inr (.inr (.inr rfl))) ih)
  | commentCr ht _ ih =>
    rw [List.append_assoc]
    exact wsTo_comment ht (.inr (.inr ⟨_, rfl⟩))
      (wsTo_blank (.inr (.inr (.inl rfl))) (wsTo_blank (.inr (.inr (.inr rfl))) ih))

theorem wsTo_stop {u : List Char} (h : NoWs u) : WsTo u u := by
  refine ⟨[], ?_⟩
  obtain ⟨e, h1⟩ : ∃ e, multispace1 u = .err e := takeWhile1_err (h.imp fun c hc => .inl ((isMultispace_iff c).1 hc))
  obtain ⟨e', h2⟩ : ∃ e, comment u = .err e := by
    obtain ⟨e, h2⟩ := chr_err (c := ';') (h.imp fun c hc => .inr hc)
    exact ⟨e, by simp only [comment, preceded, h2, PR.bind]⟩
  exact .stop (e := e') (by simp only [alt, h1, h2])

/-- `ws` reads exactly the white space. -/
theorem ws_run {w u : List Char} (hw : WS w) (hu : NoWs u) : ∃ t, ws (w ++ u) = .ok u t :=
  (hw.to (wsTo_stop hu)).ws

theorem wsTo_total (i : List Char) : ∃ u, WsTo i u := by
  generalize hk : i.length = k
  induction k using Nat.strongRecOn generalizing i with
  | _ k ih =>
    cases hp : alt multispace1 comment i with
    | ok r a =>
      have hl : r.length < i.length := by
        simp only [alt] at hp
        rcases multispace1_cases i with ⟨⟨e, he⟩, _⟩ | ⟨s, r', rfl, hne, _, _, hok⟩
        · rw [he] at hp
          rcases comment_cases i with ⟨e', he'⟩ | ⟨t, r', rfl, hok, _⟩
          · rw [he'] at hp; cases hp
          · rw [hok] at hp; cases hp; simp; omega
        · rw [hok] at hp
          cases hp
          have := List.length_pos_iff.2 hne
          simp; omega
      obtain ⟨u, as, hu⟩ := ih r.length (by omega) r rfl
      exact ⟨u, _, .step hp hl hu⟩
    | err e => exact ⟨i, [], .stop hp⟩
    | _ =>
      exfalso
      simp only [alt] at hp
      rcases multispace1_cases i with ⟨⟨e, he⟩, _⟩ | ⟨s, r', rfl, hne, _, _, hok⟩
      · rw [he] at hp
        rcases comment_cases i with ⟨e', he'⟩ | ⟨t, r', rfl, hok, _⟩
        · rw [he'] at hp; cases hp
        · rw [hok] at hp; cases hp
      · rw [hok] at hp; cases hp

/-- White space in front of any text is skipped. -/
theorem ws_prefix {w : List Char} (hw : WS w) (i : List Char) :
    ∃ u t t', ws i = .ok u t ∧ ws (w ++ i) = .ok u t' := by
  obtain ⟨u, h⟩ := wsTo_total i
  obtain ⟨t, h1⟩ := h.ws
  obtain ⟨t', h2⟩ := (hw.to h).ws
  exact ⟨u, t, t', h1, h2⟩

/-! ## Identifiers -/

theorem IdTail.drop_ealpha {t : List Char} (h : IdTail t) : IdTail (t.dropWhile ealphaChar) := by
  induction h with
  | nil => exact .nil
  | @cons ps c t h1 h2 h3 ih =>
    cases ps with
    | nil =>
      simp only [List.nil_append, List.dropWhile_cons]
      split
      · exact ih
      · exact IdTail.cons (ps := []) (by simp) h2 h3
    | cons p ps =>
      have hp : ealphaChar p = false := by
        rcases h1 p (by simp) with rfl | rfl <;> decide
      simp only [List.cons_append, List.dropWhile_cons, hp]
      exact IdTail.cons (ps := p :: ps) h1 h2 h3

theorem IdTail.drop_digit {t : List Char} (h : IdTail t) : IdTail (t.dropWhile isDigit) := by
  induction h with
  | nil => exact .nil
  | @cons ps c t h1 h2 h3 ih =>
    cases ps with
    | nil =>
      simp only [List.nil_append, List.dropWhile_cons]
      split
      · exact ih
      · exact IdTail.cons (ps := []) (by simp) h2 h3
    | cons p ps =>
      have hp : isDigit p = false := by
        rcases h1 p (by simp) with rfl | rfl <;> decide
      simp only [List.cons_append, List.dropWhile_cons, hp]
      exact IdTail.cons (ps := p :: ps) h1 h2 h3

theorem oneOf_many {cs : String} {ps r : List Char} (h : ∀ p ∈ ps, p ∈ cs.toList)
    (hr : NotHead (fun c => c ∈ cs.toList) r) : Many (oneOfChars cs) (ps ++ r) ps r := by
  induction ps with
  | nil =>
    cases r with
    | nil => exact .stop (e := unparseable []) rfl
    | cons c r =>
      have : ¬ c ∈ cs.toList := hr
      exact .stop (e := unparseable (c :: r)) (by simp [oneOfChars, satisfy, this])
  | cons p ps ih =>
    refine .step (r := ps ++ r) ?_ (by simp) (ih fun q hq => h q (by simp [hq]))
    simp [oneOfChars, satisfy, h p (by simp)]

/-- What may follow an identifier so that the token ends. -/
def IdentEnd (r : List Char) : Prop := NotHead (fun c => EAlpha c ∨ Digit c ∨ c = '-' ∨ c = '.') r

theorem AfterIdent.end {r : List Char} (h : AfterIdent r) : IdentEnd r :=
  NotHead.imp h fun c hc => by rcases hc with h | h | h | h <;> simp [h]

theorem ealpha_not_punct {c : Char} (h : EAlpha c ∨ Digit c) : ¬ (c = '-' ∨ c = '.') := by
  rintro (rfl | rfl) <;> revert h <;> unfold EAlpha Digit <;> decide

theorem identTail_punct {ps : List Char} {c : Char} {t : List Char} (h : ∀ p ∈ ps, p = '-' ∨ p = '.')
    (hc : EAlpha c ∨ Digit c) : ∃ o, opt (many1 (oneOfChars "-.")) (ps ++ c :: t) = .ok (c :: t) o := by
  have hstop : NotHead (fun c => c ∈ "-.".toList) (c :: t) := by
    intro hm
    exact ealpha_not_punct hc (by simpa using hm)
  cases ps with
  | nil =>
    refine ⟨none, ?_⟩
    have : oneOfChars "-." (c :: t) = .err (unparseable (c :: t)) := by
      have : ¬ c ∈ "-.".toList := hstop
      simp [oneOfChars, satisfy] at this ⊢
      exact this
    simp only [List.nil_append, opt, many1, this, PR.bind]
  | cons p ps =>
    refine ⟨some (p :: ps), ?_⟩
    have h1 : oneOfChars "-." (p :: (ps ++ c :: t)) = .ok (ps ++ c :: t) p := by
      have := h p (by simp)
      simp [oneOfChars, satisfy]
      rcases this with rfl | rfl <;> simp
    have h2 := oneOf_many (cs := "-.") (ps := ps) (r := c :: t)
      (fun q hq => by rcases h q (by simp [hq]) with rfl | rfl <;> decide) hstop
    have := Many.many1 h1 h2
    simp only [List.cons_append, opt, this]

theorem many_identTail : ∀ (k : Nat) {t r : List Char}, t.length ≤ k → IdTail t → IdentEnd r →
    ∃ as, Many identTail (t ++ r) as r := by
  intro k
  induction k with
  | zero =>
    intro t r hk ht hr
    have : t = [] := List.length_eq_zero_iff.1 (by omega)
    subst this
    exact many_identTail_nil hr
  | succ k ih =>
    intro t r hk ht hr
    cases ht with
    | nil => exact many_identTail_nil hr
    | @cons ps c t h1 h2 h3 =>
      obtain ⟨o, ho⟩ := identTail_punct (t := t ++ r) h1 h2
      have hend1 : NotHead (fun c => ealphaChar c = true) r := NotHead.imp hr fun c hc => .inl ((ealphaChar_iff c).1 hc)
      have hend2 : NotHead (fun c => isDigit c = true) r := NotHead.imp hr fun c hc => .inr (.inl ((isDigit_iff c).1 hc))
      by_cases hc : ealphaChar c = true
      · have e1 : ealpha (c :: (t ++ r)) = .ok (t.dropWhile ealphaChar ++ r) (c :: t.takeWhile ealphaChar) := by
          have := takeWhile_app t hend1
          simp [ealpha, takeWhile1, hc, this.1, this.2]
        have hitem : identTail (ps ++ c :: (t ++ r)) = .ok (t.dropWhile ealphaChar ++ r)
            (ps ++ c :: t.takeWhile ealphaChar) := by
          have hsplit : ps ++ c :: (t ++ r) = (ps ++ c :: t.takeWhile ealphaChar) ++ (t.dropWhile ealphaChar ++ r) := by
            have := List.takeWhile_append_dropWhile (p := ealphaChar) (l := t)
            generalize t.takeWhile ealphaChar = t1 at this
            generalize t.dropWhile ealphaChar = t2 at this
            subst this
            simp
          have : preceded (opt (many1 (oneOfChars "-."))) (alt ealpha digit1) (ps ++ c :: (t ++ r)) =
              .ok (t.dropWhile ealphaChar ++ r) (c :: t.takeWhile ealphaChar) := by
            simp only [preceded, ho, PR.bind, alt, e1]
          unfold identTail
          rw [hsplit] at this ⊢
          exact recognize_ok this
        obtain ⟨as, has⟩ := ih (t := t.dropWhile ealphaChar) (r := r)
          (by have := dropWhile_length_le ealphaChar t; simp at hk; omega) h3.drop_ealpha hr
        refine ⟨_ :: as, .step (r := t.dropWhile ealphaChar ++ r) (by simpa using hitem) ?_ has⟩
        have := dropWhile_length_le ealphaChar t
        simp; omega
      · have hd : isDigit c = true := by
          rcases h2 with h2 | h2
          · exact absurd ((ealphaChar_iff c).2 h2) hc
          · exact (isDigit_iff c).2 h2
        have hc' : ealphaChar c = false := by simpa using hc
        have e1 : digit1 (c :: (t ++ r)) = .ok (t.dropWhile isDigit ++ r) (c :: t.takeWhile isDigit) := by
          have := takeWhile_app t hend2
          simp [digit1, takeWhile1, hd, this.1, this.2]
        obtain ⟨e, e0⟩ : ∃ e, ealpha (c :: (t ++ r)) = .err e := takeWhile1_err (by simp [NotHead, hc'])
        have hitem : identTail (ps ++ c :: (t ++ r)) = .ok (t.dropWhile isDigit ++ r)
            (ps ++ c :: t.takeWhile isDigit) := by
          have hsplit : ps ++ c :: (t ++ r) = (ps ++ c :: t.takeWhile isDigit) ++ (t.dropWhile isDigit ++ r) := by
            have := List.takeWhile_append_dropWhile (p := isDigit) (l := t)
            generalize t.takeWhile isDigit = t1 at this
            generalize t.dropWhile isDigit = t2 at this
            subst this
            simp
          have : preceded (opt (many1 (oneOfChars "-."))) (alt ealpha digit1) (ps ++ c :: (t ++ r)) =
              .ok (t.dropWhile isDigit ++ r) (c :: t.takeWhile isDigit) := by
            simp only [preceded, ho, PR.bind, alt, e0, e1]
          unfold identTail
          rw [hsplit] at this ⊢
          exact recognize_ok this
        obtain ⟨as, has⟩ := ih (t := t.dropWhile isDigit) (r := r)
          (by have := dropWhile_length_le isDigit t; simp at hk; omega) h3.drop_digit hr
        refine ⟨_ :: as, .step (r := t.dropWhile isDigit ++ r) (by simpa using hitem) ?_ has⟩
        have := dropWhile_length_le isDigit t
        simp; omega
where
  dropWhile_length_le (f : Char → Bool) (t : List Char) : (t.dropWhile f).length ≤ t.length :=
    (List.dropWhile_sublist f).length_le
  many_identTail_nil {r : List Char} (hr : IdentEnd r) : ∃ as, Many identTail ([] ++ r) as r := by
    refine ⟨[], ?_⟩
    obtain ⟨e, h1⟩ : ∃ e, alt ealpha digit1 r = .err e := by
      obtain ⟨e, h1⟩ : ∃ e, ealpha r = .err e :=
        takeWhile1_err (NotHead.imp hr fun c hc => .inl ((ealphaChar_iff c).1 hc))
      obtain ⟨e', h2⟩ : ∃ e, digit1 r = .err e :=
        takeWhile1_err (NotHead.imp hr fun c hc => .inr (.inl ((isDigit_iff c).1 hc)))
      exact ⟨e', by simp only [alt, h1, h2]⟩
    have h2 : opt (many1 (oneOfChars "-.")) r = .ok r none := by
      have : oneOfChars "-." r = .err (unparseable r) := by
        cases r with
        | nil => rfl
        | cons c r =>
          have hc : ¬ (EAlpha c ∨ Digit c ∨ c = '-' ∨ c = '.') := hr
          have h1 : ¬ c = '-' := fun h => hc (.inr (.inr (.inl h)))
          have h2 : ¬ c = '.' := fun h => hc (.inr (.inr (.inr h)))
          simp [oneOfChars, satisfy, h1, h2]
      simp only [opt, many1, this, PR.bind]
    refine .stop (e := e) ?_
    simp only [List.nil_append, identTail, recognize, preceded, h2, PR.bind, h1]

theorem ident_run {s r : List Char} (h : Ident s) (hr : IdentEnd r) : ident (s ++ r) = .ok r s := by
  cases h with
  | @mk c t hc ht =>
    have hend1 : NotHead (fun c => ealphaChar c = true) r := NotHead.imp hr fun c hc => .inl ((ealphaChar_iff c).1 hc)
    have e1 : ealpha (c :: (t ++ r)) = .ok (t.dropWhile ealphaChar ++ r) (c :: t.takeWhile ealphaChar) := by
      have := takeWhile_app t hend1
      simp [ealpha, takeWhile1, (ealphaChar_iff c).2 hc, this.1, this.2]
    obtain ⟨as, has⟩ := many_identTail _ (Nat.le_refl _) ht.drop_ealpha hr
    refine recognize_ok (a := as) ?_
    simp only [preceded, List.cons_append, e1, PR.bind, has.many0]

/-- No identifier begins here. -/
theorem ident_err {i : List Char} (h : NotHead EAlpha i) : ∃ e, ident i = .err e := by
  obtain ⟨e, h1⟩ : ∃ e, ealpha i = .err e := takeWhile1_err (h.imp fun c hc => (ealphaChar_iff c).1 hc)
  exact ⟨e, by simp only [ident, recognize, preceded, h1, PR.bind]⟩

/-! ## Numbers -/

/-- What may follow the number token `u`. -/
def UintEnd (u r : List Char) : Prop :=
  NotHead (fun c => HexDigit c ∨ c = 'x') r ∨ ((∀ d ∈ u, Digit d) ∧ NotHead (fun c => Digit c ∨ c = 'x' ∨ c = 'b') r)

theorem uint_run {u r : List Char} {n : Nat} (h : UintText u n) (hr : UintEnd u r) :
    ∃ raw, uint (u ++ r) = .ok r raw ∧
      fromStrRadix raw.slice raw.base = if n < 18446744073709551616 then some n else none := by
  have hnd : NotHead (fun c => Digit c) r := by
    rcases hr with h | ⟨_, h⟩ <;> exact h.imp fun c hc => .inl (by first | exact .inl hc | exact hc)
  have hnx : NotHead (fun c => c = 'x') r := by
    rcases hr with h | ⟨_, h⟩
    · exact h.imp fun c hc => .inr hc
    · exact h.imp fun c hc => .inr (.inl hc)
  have hnb : NotHead (fun c => c = 'b') r := by
    rcases hr with h | ⟨_, h⟩
    · exact h.imp fun c hc => .inl (by subst hc; unfold HexDigit Digit; decide)
    · exact h.imp fun c hc => .inr (.inr hc)
  cases h with
  | zero =>
    refine ⟨⟨['0'], 10⟩, ?_, by decide⟩
    obtain ⟨e1, h1⟩ : ∃ e, tag "0x" (['0'] ++ r) = .err e := tag_err (by
      intro r' h; cases r with
      | nil => simp at h
      | cons c r => simp at h; exact hnx h.1)
    obtain ⟨e2, h2⟩ : ∃ e, tag "0b" (['0'] ++ r) = .err e := tag_err (by
      intro r' h; cases r with
      | nil => simp at h
      | cons c r => simp at h; exact hnb h.1)
    have h3 : tag "0" (['0'] ++ r) = .ok r ['0'] := tag_ok _ _ _ rfl
    simp only [uint, alt, pmap, uintHex, uintBinary, uintDecimal, preceded, h1, h2, h3, PR.bind]
  | @dec c ds hc h0 hds =>
    refine ⟨⟨c :: ds, 10⟩, ?_, ?_⟩
    · obtain ⟨e1, h1⟩ : ∃ e, tag "0x" (c :: ds ++ r) = .err e := tag_err (by
        intro r' h; simp at h; exact h0 h.1)
      obtain ⟨e2, h2⟩ : ∃ e, tag "0b" (c :: ds ++ r) = .err e := tag_err (by
        intro r' h; simp at h; exact h0 h.1)
      obtain ⟨e3, h3⟩ : ∃ e, tag "0" (c :: ds ++ r) = .err e := tag_err (by
        intro r' h; simp at h; exact h0 h.1)
      have hd := takeWhile_all (f := isDigit) (t := ds) (r := r) (fun d hd => (isDigit_iff d).2 (hds d hd))
        (hnd.imp fun d hd => (isDigit_iff d).1 hd)
      have hone : oneOfChars "123456789" (c :: (ds ++ r)) = .ok (ds ++ r) c := by
        have key : ∀ c ∈ "0123456789".toList, c ≠ '0' → "123456789".toList.contains c = true := by decide
        have := key c (digit_cases hc) h0
        simp only [oneOfChars, satisfy, this, if_true]
      have h4 : recognize (pair (oneOfChars "123456789") digit0) (c :: ds ++ r) = .ok r (c :: ds) := by
        refine recognize_ok (a := (c, ds)) ?_
        simp only [List.cons_append, pair, hone, PR.bind, digit0, takeWhile0, hd.1, hd.2]
      simp only [uint, alt, pmap, uintHex, uintBinary, uintDecimal, preceded, h1, h2, h3, h4, PR.bind]
    · refine fromStrRadix_eq (by simp) (fun d hd => ?_) (by simp)
      rcases List.mem_cons.1 hd with rfl | hd
      · exact digitVal_dec hc
      · exact digitVal_dec (hds d hd)
  | @hex ds hne hds =>
    have hnh : NotHead (fun c => isHexDigit c = true) r := by
      rcases hr with h | ⟨h, _⟩
      · exact h.imp fun c hc => .inl ((isHexDigit_iff c).1 hc)
      · exact absurd (h 'x' (by simp)) (by unfold Digit; decide)
    refine ⟨⟨ds, 16⟩, ?_, fromStrRadix_eq (by simp) (fun d hd => digitVal_hex (hds d hd)) hne⟩
    have h1 : tag "0x" (['0', 'x'] ++ (ds ++ r)) = .ok (ds ++ r) ['0', 'x'] := tag_ok _ _ _ rfl
    have h2 : hexDigit1 (ds ++ r) = .ok r ds := takeWhile1_ok (fun d hd => (isHexDigit_iff d).2 (hds d hd)) hne hnh
    simp only [List.cons_append, List.nil_append] at h1
    simp only [List.cons_append, uint, alt, pmap, uintHex, preceded, h1, h2, PR.bind]
  | @bin ds hne hds =>
    have hnh : NotHead (fun c => c ∈ "01".toList) r := by
      refine hnd.imp fun c hc => ?_
      have : c = '0' ∨ c = '1' := by simpa using hc
      rcases this with rfl | rfl <;> (unfold Digit; decide)
    refine ⟨⟨ds, 2⟩, ?_, fromStrRadix_eq (by simp) (fun d hd => digitVal_bin (hds d hd)) hne⟩
    obtain ⟨e1, h1⟩ : ∃ e, tag "0x" ('0' :: 'b' :: (ds ++ r)) = .err e := tag_err (by
      intro r' h; simp at h)
    have h2 : tag "0b" (['0', 'b'] ++ (ds ++ r)) = .ok (ds ++ r) ['0', 'b'] := tag_ok _ _ _ rfl
    simp only [List.cons_append, List.nil_append] at h2
    cases ds with
    | nil => exact absurd rfl hne
    | cons d ds =>
      have h3 : oneOfChars "01" (d :: (ds ++ r)) = .ok (ds ++ r) d := by
        rcases hds d (by simp) with rfl | rfl <;> simp [oneOfChars, satisfy]
      have h4 : Many (oneOfChars "01") (ds ++ r) ds r := oneOf_many (fun q hq => by
        rcases hds q (by simp [hq]) with rfl | rfl <;> decide) hnh
      have h5 : recognize (many1 (oneOfChars "01")) (d :: ds ++ r) = .ok r (d :: ds) :=
        recognize_ok (a := d :: ds) (Many.many1 h3 h4)
      simp only [List.cons_append] at h5 h1 h2 ⊢
      simp only [uint, alt, pmap, uintHex, uintBinary, preceded, h1, h2, h5, PR.bind]

/-- No number begins here. -/
theorem uint_err {i : List Char} (h : NotHead Digit i) : ∃ e, uint i = .err e := by
  have h0 : ∀ c ∈ "0123456789".toList, Digit c := by unfold Digit; decide
  obtain ⟨e1, h1⟩ : ∃ e, tag "0x" i = .err e := tag_err (by
    rintro r rfl; exact h (h0 '0' (by decide)))
  obtain ⟨e2, h2⟩ : ∃ e, tag "0b" i = .err e := tag_err (by
    rintro r rfl; exact h (h0 '0' (by decide)))
  obtain ⟨e3, h3⟩ : ∃ e, tag "0" i = .err e := tag_err (by
    rintro r rfl; exact h (h0 '0' (by decide)))
  have h4 : oneOfChars "123456789" i = .err (unparseable i) := by
    cases i with
    | nil => rfl
    | cons c i =>
      have key : ∀ c ∈ "123456789".toList, Digit c := by unfold Digit; decide
      have : ("123456789".toList.contains c) = false := by
        cases hc : ("123456789".toList.contains c) with
        | false => rfl
        | true => exact absurd (key c (by simpa using hc)) h
      simp only [oneOfChars, satisfy, this, Bool.false_eq_true, if_false]
  exact ⟨unparseable i, by
    simp only [uint, alt, pmap, uintHex, uintBinary, uintDecimal, preceded, recognize, pair, h1, h2, h3, h4, PR.bind]⟩

theorem uintU64_run {u r : List Char} {n : Nat} (h : UintText u n) (hn : n < 2 ^ 64) (hr : UintEnd u r) :
    uintU64 (u ++ r) = .ok r n := by
  obtain ⟨raw, h1, h2⟩ := uint_run h hr
  rw [if_pos (by simpa using hn)] at h2
  simp only [uintU64, mapResFail, h1, PR.bind, h2]

theorem uintU64_err {i : List Char} (h : NotHead Digit i) : ∃ e, uintU64 i = .err e := by
  obtain ⟨e, h⟩ := uint_err h
  exact ⟨e, by simp only [uintU64, mapResFail, h, PR.bind]⟩

theorem UintText.head {u : List Char} {n : Nat} (h : UintText u n) : ∃ c t, u = c :: t ∧ Digit c := by
  cases h with
  | zero => exact ⟨_, _, rfl, by unfold Digit; decide⟩
  | dec hc _ _ => exact ⟨_, _, rfl, hc⟩
  | hex _ _ => exact ⟨_, _, rfl, by unfold Digit; decide⟩
  | bin _ _ => exact ⟨_, _, rfl, by unfold Digit; decide⟩

theorem hex_alnum {c : Char} (h : HexDigit c ∨ c = 'x') : EAlpha c ∨ Digit c := by
  rcases h with (h | ⟨h1, h2⟩ | ⟨h1, h2⟩) | rfl
  · exact .inr h
  · left; left
    exact ⟨h1, Char.le_trans h2 (by decide)⟩
  · left; right; left
    exact ⟨h1, Char.le_trans h2 (by decide)⟩
  · left; unfold EAlpha; decide

theorem AfterNumber.notHead {r : List Char} (h : AfterNumber r) :
    NotHead (fun c => EAlpha c ∨ Digit c ∨ c = '*') r := by
  unfold AfterNumber at h
  split at h
  · intro hc
    revert hc
    unfold EAlpha Digit
    decide
  · exact h

theorem AfterNumber.uintEnd {r : List Char} (h : AfterNumber r) (u : List Char) : UintEnd u r :=
  .inl (h.notHead.imp fun c hc => by
    rcases hex_alnum hc with h | h
    · exact .inl h
    · exact .inr (.inl h))

theorem digit1_err {r : List Char} (h : NotHead Digit r) : ∃ e, digit1 r = .err e :=
  takeWhile1_err (h.imp fun c hc => (isDigit_iff c).1 hc)

theorem AfterNumber.noFrac {r : List Char} (h : AfterNumber r) : opt dotFraction r = .ok r none := by
  have : ∃ e, dotFraction r = .err e := by
    cases r with
    | nil => exact ⟨_, rfl⟩
    | cons c r =>
      by_cases hc : c = '.'
      · subst hc
        have hd : NotHead Digit r := by
          cases r with
          | nil => trivial
          | cons d r => exact h
        obtain ⟨e, he⟩ := digit1_err hd
        exact ⟨e, by simp only [dotFraction, recognize, pair, chr_ok, he, PR.bind]⟩
      · obtain ⟨e, he⟩ := chr_err (c := '.') (i := c :: r) hc
        exact ⟨e, by simp only [dotFraction, recognize, pair, he, PR.bind]⟩
  obtain ⟨e, he⟩ := this
  simp only [opt, he]

theorem eExponent_none {r : List Char} (h : NotHead (fun c => c = 'e') r) : opt eExponent r = .ok r none := by
  obtain ⟨e, he⟩ := chr_err h
  simp only [opt, eExponent, recognize, pair, he, PR.bind]

theorem AfterNumber.noExp {r : List Char} (h : AfterNumber r) : opt eExponent r = .ok r none :=
  eExponent_none (h.notHead.imp fun c hc => by subst hc; left; unfold EAlpha; decide)

theorem opt_minus_none {i : List Char} (h : NotHead (fun c => c = '-') i) : opt (chr '-') i = .ok i none := by
  obtain ⟨e, he⟩ := chr_err h
  simp only [opt, he]

theorem digit_ne_minus {c : Char} (h : Digit c) : c ≠ '-' := by
  rintro rfl; revert h; unfold Digit; decide

theorem int_run {sg u r : List Char} {n : Nat} (hsg : sg = [] ∨ sg = ['-']) (h : UintText u n) (hr : UintEnd u r) :
    ∃ raw, int (sg ++ (u ++ r)) = .ok r raw ∧ raw.neg = (sg == ['-']) ∧
      fromStrRadix raw.slice raw.base = if n < 18446744073709551616 then some n else none := by
  obtain ⟨raw, h1, h2⟩ := uint_run h hr
  rcases hsg with rfl | rfl
  · refine ⟨⟨raw.slice, raw.base, false⟩, ?_, rfl, h2⟩
    have : opt (chr '-') (u ++ r) = .ok (u ++ r) none := by
      refine opt_minus_none ?_
      obtain ⟨c, t, rfl, hc⟩ := h.head
      exact digit_ne_minus hc
    simp only [List.nil_append, int, pmap, pair, this, PR.bind, h1, Option.isSome_none]
  · refine ⟨⟨raw.slice, raw.base, true⟩, ?_, rfl, h2⟩
    have : opt (chr '-') ('-' :: (u ++ r)) = .ok (u ++ r) (some '-') := by
      simp only [opt, chr_ok]
    simp only [List.cons_append, List.nil_append, int, pmap, pair, this, PR.bind, h1, Option.isSome_some]

/-- `float_or_int` on the text of an integer. -/
theorem floatOrInt_int' (x : ParseExt) {sg u r : List Char} {n : Nat} (hsg : sg = [] ∨ sg = ['-']) (h : UintText u n)
    (hr : UintEnd u r) (hr1 : opt dotFraction r = .ok r none) (hr2 : opt eExponent r = .ok r none) :
    ∃ raw, floatOrInt x (sg ++ u ++ r) = (match parseInt raw with
      | .ok b => .ok r b
      | .error e => .fail e) ∧ raw.neg = (sg == ['-']) ∧
      fromStrRadix raw.slice raw.base = if n < 18446744073709551616 then some n else none := by
  obtain ⟨raw, h1, h2, h3⟩ := int_run hsg h hr
  refine ⟨raw, ?_, h2, h3⟩
  have : recognizer (pair int (pair (opt dotFraction) (opt eExponent))) (sg ++ u ++ r) =
      .ok r (sg ++ u, raw, none, none) := by
    refine recognizer_ok ?_
    rw [List.append_assoc]
    simp only [pair, h1, PR.bind, hr1, hr2]
  simp only [floatOrInt, mapResFail, this, PR.bind, Option.isSome_none, Bool.or_self, Bool.false_eq_true, if_false]
  cases parseInt raw <;> rfl

theorem floatOrInt_int (x : ParseExt) {sg u r : List Char} {n : Nat} (hsg : sg = [] ∨ sg = ['-']) (h : UintText u n)
    (hr : AfterNumber r) : ∃ raw, floatOrInt x (sg ++ u ++ r) = (match parseInt raw with
      | .ok b => .ok r b
      | .error e => .fail e) ∧ raw.neg = (sg == ['-']) ∧
      fromStrRadix raw.slice raw.base = if n < 18446744073709551616 then some n else none :=
  floatOrInt_int' x hsg h (hr.uintEnd u) hr.noFrac hr.noExp

theorem FracText.notHead {fr : List Char} (h : FracText fr) {p : Char → Prop} {r : List Char}
    (hp : ¬ p '.') (hr : NotHead p r) : NotHead p (fr ++ r) := by
  cases h with
  | none => exact hr
  | some _ _ => exact hp

theorem ExpText.notHead {ex : List Char} (h : ExpText ex) {p : Char → Prop} {r : List Char}
    (hp : ¬ p 'e') (hr : NotHead p r) : NotHead p (ex ++ r) := by
  cases h with
  | none => exact hr
  | plain _ _ => exact hp
  | signed _ _ _ => exact hp

theorem digit1_ok {ds r : List Char} (hne : ds ≠ []) (h : ∀ d ∈ ds, Digit d) (hr : NotHead Digit r) :
    digit1 (ds ++ r) = .ok r ds :=
  takeWhile1_ok (fun d hd => (isDigit_iff d).2 (h d hd)) hne (hr.imp fun c hc => (isDigit_iff c).1 hc)

theorem float_end {fr ex r : List Char} (hfr : FracText fr) (hex : ExpText ex) (hr : AfterNumber r) :
    NotHead (fun c => Digit c ∨ c = 'x' ∨ c = 'b') (fr ++ (ex ++ r)) :=
  hfr.notHead (by unfold Digit; decide) (hex.notHead (by unfold Digit; decide) (hr.notHead.imp fun c hc => by
    rcases hc with h | rfl | rfl
    · exact .inr (.inl h)
    · left; unfold EAlpha; decide
    · left; unfold EAlpha; decide))

/-- What `float_or_int` recognizes in the text of a float. -/
theorem float_recognizer {sg u fr ex r : List Char} {n : Nat} (hsg : sg = [] ∨ sg = ['-'])
    (h : UintText u n) (hu : UintEnd u (fr ++ (ex ++ r))) (hfr : FracText fr) (hex : ExpText ex) (hne : fr ≠ [] ∨ ex ≠ [])
    (hr : AfterNumber r) : ∃ raw o1 o2, (o1.isSome || o2.isSome) = true ∧
      recognizer (pair int (pair (opt dotFraction) (opt eExponent))) (sg ++ u ++ fr ++ ex ++ r) =
        .ok r (sg ++ u ++ fr ++ ex, raw, o1, o2) := by
  have hrd : NotHead Digit r := hr.notHead.imp fun c hc => .inr (.inl hc)
  have hexd : NotHead Digit (ex ++ r) := hex.notHead (by unfold Digit; decide) hrd
  obtain ⟨raw, h1, -, -⟩ := int_run hsg h hu
  have hexp : ∃ o, opt eExponent (ex ++ r) = .ok r o ∧ (ex ≠ [] → o.isSome = true) := by
    cases hex with
    | none => exact ⟨none, hr.noExp, fun h => absurd rfl h⟩
    | @plain ds hne' hds =>
      refine ⟨some ('e' :: ds), ?_, fun _ => rfl⟩
      have h2 : opt (oneOfChars "+-") (ds ++ r) = .ok (ds ++ r) none := by
        cases ds with
        | nil => exact absurd rfl hne'
        | cons d ds =>
          have hd := hds d (by simp)
          have e1 : d ≠ '+' := by rintro rfl; revert hd; unfold Digit; decide
          have e2 : d ≠ '-' := digit_ne_minus hd
          simp [opt, oneOfChars, satisfy, e1, e2]
      have : eExponent ('e' :: ds ++ r) = .ok r ('e' :: ds) := by
        refine recognize_ok (a := ('e', none, ds)) ?_
        simp only [List.cons_append, pair, chr_ok, PR.bind, h2, digit1_ok hne' hds hrd]
      simp only [opt, this]
    | @signed c ds hc hne' hds =>
      refine ⟨some ('e' :: c :: ds), ?_, fun _ => rfl⟩
      have h2 : opt (oneOfChars "+-") (c :: (ds ++ r)) = .ok (ds ++ r) (some c) := by
        rcases hc with rfl | rfl <;> simp [opt, oneOfChars, satisfy]
      have : eExponent ('e' :: c :: ds ++ r) = .ok r ('e' :: c :: ds) := by
        refine recognize_ok (a := ('e', some c, ds)) ?_
        simp only [List.cons_append, pair, chr_ok, PR.bind, h2, digit1_ok hne' hds hrd]
      simp only [opt, this]
  have hfrac : ∃ o, opt dotFraction (fr ++ (ex ++ r)) = .ok (ex ++ r) o ∧ (fr ≠ [] → o.isSome = true) := by
    cases hfr with
    | none =>
      refine ⟨none, ?_, fun h => absurd rfl h⟩
      have hex' : ex ≠ [] := by rcases hne with h | h; exact absurd rfl h; exact h
      have : NotHead (fun c => c = '.') (ex ++ r) := by
        cases hex with
        | none => exact absurd rfl hex'
        | plain _ _ => simp [NotHead]
        | signed _ _ _ => simp [NotHead]
      obtain ⟨e, he⟩ := chr_err this
      simp only [List.nil_append, opt, dotFraction, recognize, pair, he, PR.bind]
    | @some ds hne' hds =>
      refine ⟨Option.some ('.' :: ds), ?_, fun _ => rfl⟩
      have : dotFraction ('.' :: ds ++ (ex ++ r)) = .ok (ex ++ r) ('.' :: ds) := by
        refine recognize_ok (a := ('.', ds)) ?_
        simp only [List.cons_append, pair, chr_ok, PR.bind, digit1_ok hne' hds hexd]
      simp only [opt, this]
  obtain ⟨o1, ho1, hs1⟩ := hfrac
  obtain ⟨o2, ho2, hs2⟩ := hexp
  refine ⟨raw, o1, o2, ?_, recognizer_ok ?_⟩
  · rcases hne with h | h
    · rw [hs1 h]; rfl
    · rw [hs2 h]; simp
  · have e : sg ++ u ++ fr ++ ex ++ r = sg ++ (u ++ (fr ++ (ex ++ r))) := by simp
    rw [e]
    simp only [pair, h1, PR.bind, ho1, ho2]

theorem floatOrInt_float (x : ParseExt) {sg u fr ex r : List Char} {n : Nat} {f : F64} (hsg : sg = [] ∨ sg = ['-'])
    (h : UintText u n) (hu : ∀ d ∈ u, Digit d) (hfr : FracText fr) (hex : ExpText ex) (hne : fr ≠ [] ∨ ex ≠ [])
    (hf : x.parseF64 (String.ofList (sg ++ u ++ fr ++ ex)) = some f) (hr : AfterNumber r) :
    floatOrInt x (sg ++ u ++ fr ++ ex ++ r) = .ok r (.float f) := by
  obtain ⟨raw, o1, o2, hsome, this⟩ := float_recognizer hsg h (.inr ⟨hu, float_end hfr hex hr⟩) hfr hex hne hr
  simp only [floatOrInt, mapResFail, this, PR.bind, hsome, if_true, parseFloat, hf]

theorem floatOrInt_err (x : ParseExt) {i : List Char} (h : NotHead (fun c => Digit c ∨ c = '-') i) :
    ∃ e, floatOrInt x i = .err e := by
  obtain ⟨e, he⟩ := uint_err (h.imp fun c hc => .inl hc)
  have := opt_minus_none (h.imp fun c hc => .inr hc)
  exact ⟨e, by simp only [floatOrInt, mapResFail, recognizer, pair, int, pmap, this, he, PR.bind]⟩

/-! ## Strings -/

theorem many_chars {q : Char} {f : Char → Bool} (hf : ∀ c, f c = true ↔ PlainChar true c ∧ c ≠ q ∧ c ≠ '\\')
    (hq : q ≠ '\\') : ∀ (k : Nat) {s r : List Char}, s.length ≤ k → Quoted true q s →
    ∃ as, Many (alt (takeWhile1 f) sesc) (s ++ q :: r) as (q :: r) := by
  have hfq : f q = false := by
    cases h : f q with
    | false => rfl
    | true => exact absurd rfl ((hf q).1 h).2.1
  have hfb : f '\\' = false := by
    cases h : f '\\' with
    | false => rfl
    | true => exact absurd rfl ((hf _).1 h).2.2
  have hdrop : ∀ {s : List Char}, Quoted true q s → Quoted true q (s.dropWhile f) := by
    intro s hs
    induction hs with
    | nil => exact .nil
    | @plain c t h1 h2 h3 h4 ih =>
      rw [List.dropWhile_cons]
      split
      · exact ih
      · exact .plain h1 h2 h3 h4
    | @esc c t h4 ih =>
      rw [List.dropWhile_cons, hfb]
      exact .esc h4
  have hnil : ∀ r, ∃ as, Many (alt (takeWhile1 f) sesc) ([] ++ q :: r) as (q :: r) := by
    intro r
    refine ⟨[], ?_⟩
    obtain ⟨e, h1⟩ : ∃ e, takeWhile1 f (q :: r) = .err e := takeWhile1_err (by simp [NotHead, hfq])
    obtain ⟨e', h2⟩ : ∃ e, chr '\\' (q :: r) = .err e := chr_err hq
    exact .stop (e := e') (by simp only [List.nil_append, alt, h1, sesc, preceded, h2, PR.bind])
  intro k
  induction k with
  | zero =>
    intro s r hk _
    have : s = [] := List.length_eq_zero_iff.1 (by omega)
    subst this
    exact hnil r
  | succ k ih =>
    intro s r hk hs
    cases hs with
    | nil => exact hnil r
    | @plain c t h1 h2 h3 h4 =>
      have hc := (hf c).2 ⟨h1, h2, h3⟩
      have htw := takeWhile_app (f := f) t (r := q :: r) (by simp [NotHead, hfq])
      have e1 : takeWhile1 f (c :: (t ++ q :: r)) = .ok (t.dropWhile f ++ q :: r) (c :: t.takeWhile f) := by
        simp [takeWhile1, hc, htw.1, htw.2]
      have hlen := (List.dropWhile_sublist f (l := t)).length_le
      obtain ⟨as, has⟩ := ih (s := t.dropWhile f) (r := r) (by simp at hk; omega) (hdrop h4)
      refine ⟨_ :: as, .step (r := t.dropWhile f ++ q :: r) (a := c :: t.takeWhile f) ?_ ?_ has⟩
      · simp only [List.cons_append, alt, e1]
      · simp; omega
    | @esc c t h4 =>
      obtain ⟨as, has⟩ := ih (s := t) (r := r) (by simp at hk; omega) h4
      obtain ⟨e, h1⟩ : ∃ e, takeWhile1 f ('\\' :: c :: (t ++ q :: r)) = .err e :=
        takeWhile1_err (by simp [NotHead, hfb])
      refine ⟨[c] :: as, .step (r := t ++ q :: r) ?_ (by simp; omega) has⟩
      have h2 : recognize anychar ([c] ++ (t ++ q :: r)) = .ok (t ++ q :: r) [c] := recognize_ok (a := c) rfl
      simp only [List.cons_append, List.nil_append] at h2
      simp only [List.cons_append, alt, h1, sesc, preceded, chr_ok, PR.bind, h2]

theorem chars_run {q : Char} {f : Char → Bool} (hf : ∀ c, f c = true ↔ PlainChar true c ∧ c ≠ q ∧ c ≠ '\\')
    (hq : q ≠ '\\') {s r : List Char} (hs : Quoted true q s) :
    recognize (many0 (alt (takeWhile1 f) sesc)) (s ++ q :: r) = .ok (q :: r) s := by
  obtain ⟨as, h⟩ := many_chars hf hq _ (Nat.le_refl _) (r := r) hs
  exact recognize_ok (a := as) h.many0

theorem bchar_run {s r : List Char} (hs : Quoted true '\'' s) : bchar (s ++ '\'' :: r) = .ok ('\'' :: r) s :=
  chars_run isUnescapedBchar_iff (by decide) hs

theorem schar_run {s r : List Char} (hs : Quoted true '"' s) : schar (s ++ '"' :: r) = .ok ('"' :: r) s :=
  chars_run isUnescapedSchar_iff (by decide) hs

theorem hexDecode_complete {s : List Char} {b : List UInt8} (h : HexBytes s b) : hexDecode s = some b := by
  induction h with
  | nil => rfl
  | cons ha hb _ ih =>
    simp only [hexDecode, (digitVal_hex ha).1, (digitVal_hex hb).1, ih]
    rw [Nat.mul_comm]

theorem textLiteral_err (x : ParseExt) {i : List Char} (h : NotHead (fun c => c = '"') i) :
    ∃ e, textLiteral x i = .err e := by
  obtain ⟨e, he⟩ := chr_err h
  exact ⟨e, by simp only [textLiteral, mapResFail, delimited, preceded, he, PR.bind]⟩

/-- No byte string begins here. -/
theorem bytestring_err (x : ParseExt) {i : List Char} (h1 : ∀ r, i ≠ '\'' :: r) (h2 : ∀ r, i ≠ 'h' :: '\'' :: r)
    (h3 : ∀ r, i ≠ 'b' :: '6' :: '4' :: '\'' :: r) : ∃ e, bytestring x i = .err e := by
  obtain ⟨e1, h1⟩ := tag_err (t := "'") h1
  obtain ⟨e2, h2⟩ := tag_err (t := "h'") h2
  obtain ⟨e3, h3⟩ := tag_err (t := "b64'") h3
  exact ⟨e3, by
    simp only [bytestring, alt, pmap, bytestringUtf8, bytestringHex, bytestringBase64, mapResFail, delimited,
      preceded, h1, h2, h3, PR.bind]⟩

theorem value_err (x : ParseExt) {i : List Char} (h : NotHead (fun c => Digit c ∨ c = '-' ∨ c = '"') i)
    (h1 : ∀ r, i ≠ '\'' :: r) (h2 : ∀ r, i ≠ 'h' :: '\'' :: r)
    (h3 : ∀ r, i ≠ 'b' :: '6' :: '4' :: '\'' :: r) : ∃ e, value x i = .err e := by
  obtain ⟨e1, e1h⟩ := floatOrInt_err x (h.imp fun c hc => by rcases hc with h | h; exact .inl h; exact .inr (.inl h))
  obtain ⟨e2, e2h⟩ := textLiteral_err x (h.imp fun c hc => .inr (.inr hc))
  obtain ⟨e3, e3h⟩ := bytestring_err x h1 h2 h3
  exact ⟨e3, by simp only [value, alt, pmap, e1h, e2h, e3h, PR.bind]⟩

/-- `value` reads the text of a literal. -/
theorem value_run (x : ParseExt) {s r : List Char} {v : Ast.Value} (h : ValueText x true s v)
    (hr : AfterTy2 (.value v) r) : value x (s ++ r) = .ok r v := by
  cases h with
  | @uint _ n h hn =>
    obtain ⟨raw, h1, h2, h3⟩ := floatOrInt_int x (sg := []) (.inl rfl) h hr
    rw [if_pos (by simpa using hn)] at h3
    simp only [List.nil_append] at h1
    have h2' : raw.neg = false := by rw [h2]; rfl
    simp only [parseInt, h3, h2', Bool.false_eq_true, if_false] at h1
    simp only [value, alt, h1]
  | @nint s n h hn =>
    obtain ⟨raw, h1, h2, h3⟩ := floatOrInt_int x (sg := ['-']) (.inr rfl) h hr
    have hn' : n < 9223372036854775808 := by simpa using hn
    rw [if_pos (by omega)] at h3
    have h2' : raw.neg = true := by rw [h2]; rfl
    simp only [parseInt, h3, h2', if_true, hn'] at h1
    simp only [List.cons_append, List.nil_append] at h1 ⊢
    simp only [value, alt, h1]
  | float hsg h hs hfr hex hne hf =>
    have := floatOrInt_float x hsg h (hs rfl).2 hfr hex hne hf hr
    simp only [value, alt, this]
  | @text s t hq hu =>
    obtain ⟨e, he⟩ := floatOrInt_err x (i := '"' :: s ++ ['"'] ++ r) (by
      simp only [List.cons_append, NotHead]; unfold Digit; decide)
    have e1 : '"' :: s ++ ['"'] ++ r = '"' :: (s ++ '"' :: r) := by simp
    rw [e1] at he ⊢
    simp only [value, alt, he, pmap, textLiteral, mapResFail, delimited, preceded, terminated, chr_ok, PR.bind,
      schar_run hq, unescapeOr, hu]
  | @bytes s t hq hu =>
    have e1 : '\'' :: s ++ ['\''] ++ r = '\'' :: (s ++ '\'' :: r) := by simp
    rw [e1]
    obtain ⟨e, he⟩ := floatOrInt_err x (i := '\'' :: (s ++ '\'' :: r)) (by
      simp only [NotHead]; unfold Digit; decide)
    obtain ⟨e2, he2⟩ := textLiteral_err x (i := '\'' :: (s ++ '\'' :: r)) (by simp [NotHead])
    have t1 : tag "'" ('\'' :: (s ++ '\'' :: r)) = .ok (s ++ '\'' :: r) ['\''] := tag_ok "'" ['\''] _ rfl
    have t2 : tag "'" ('\'' :: r) = .ok r ['\''] := tag_ok "'" ['\''] _ rfl
    simp only [value, alt, he, he2, pmap, bytestring, bytestringUtf8, mapResFail, delimited, preceded, terminated,
      t1, t2, PR.bind, bchar_run hq, unescapeOr, hu]
  | @hex s b hq hb =>
    have e1 : 'h' :: '\'' :: s ++ ['\''] ++ r = 'h' :: '\'' :: (s ++ '\'' :: r) := by simp
    rw [e1]
    obtain ⟨e, he⟩ := floatOrInt_err x (i := 'h' :: '\'' :: (s ++ '\'' :: r)) (by
      simp only [NotHead]; unfold Digit; decide)
    obtain ⟨e2, he2⟩ := textLiteral_err x (i := 'h' :: '\'' :: (s ++ '\'' :: r)) (by simp [NotHead])
    obtain ⟨e3, he3⟩ := tag_err (t := "'") (i := 'h' :: '\'' :: (s ++ '\'' :: r)) (by intro r' h; simp at h)
    have t1 : tag "h'" ('h' :: '\'' :: (s ++ '\'' :: r)) = .ok (s ++ '\'' :: r) ['h', '\''] :=
      tag_ok "h'" ['h', '\''] _ rfl
    have t2 : tag "'" ('\'' :: r) = .ok r ['\''] := tag_ok "'" ['\''] _ rfl
    simp only [value, alt, he, he2, pmap, bytestring, bytestringUtf8, bytestringHex, mapResFail, delimited, preceded,
      terminated, he3, t1, t2, PR.bind, bchar_run hq, parseHex, hexBlank_filter, hexDecode_complete hb]
  | @base64 s b hq hb =>
    have e1 : 'b' :: '6' :: '4' :: '\'' :: s ++ ['\''] ++ r = 'b' :: '6' :: '4' :: '\'' :: (s ++ '\'' :: r) := by simp
    rw [e1]
    obtain ⟨e, he⟩ := floatOrInt_err x (i := 'b' :: '6' :: '4' :: '\'' :: (s ++ '\'' :: r)) (by
      simp only [NotHead]; unfold Digit; decide)
    obtain ⟨e2, he2⟩ := textLiteral_err x (i := 'b' :: '6' :: '4' :: '\'' :: (s ++ '\'' :: r)) (by simp [NotHead])
    obtain ⟨e3, he3⟩ := tag_err (t := "'") (i := 'b' :: '6' :: '4' :: '\'' :: (s ++ '\'' :: r)) (by
      intro r' h; simp at h)
    obtain ⟨e4, he4⟩ := tag_err (t := "h'") (i := 'b' :: '6' :: '4' :: '\'' :: (s ++ '\'' :: r)) (by
      intro r' h; simp at h)
    have t1 : tag "b64'" ('b' :: '6' :: '4' :: '\'' :: (s ++ '\'' :: r)) =
        .ok (s ++ '\'' :: r) ['b', '6', '4', '\''] := tag_ok "b64'" ['b', '6', '4', '\''] _ rfl
    simp only [value, alt, he, he2, pmap, bytestring, bytestringUtf8, bytestringHex, bytestringBase64, mapResFail,
      delimited, preceded, terminated, he3, he4, t1, chr_ok, PR.bind, bchar_run hq, parseBase64, hb]

/-! ## Occurrences -/

theorem occurStar_none {i : List Char} (h : NotHead (fun c => Digit c ∨ c = '*') i) : ∃ e, occurStar i = .err e := by
  obtain ⟨e, he⟩ := uintU64_err (h.imp fun c hc => .inl hc)
  obtain ⟨e', he'⟩ := tag_err (t := "*") (i := i) (by rintro r rfl; exact h (.inr rfl))
  exact ⟨e', by simp only [occurStar, mapRes, pair, opt, he, he', PR.bind]⟩

/-- Here begins no occurrence: neither `?`, `*`, `+` nor a number with `*` behind it. -/
def NoOccur (i : List Char) : Prop :=
  NotHead (fun c => Digit c ∨ c = '*' ∨ c = '+' ∨ c = '?') i ∨
    ∃ u n r, i = u ++ r ∧ UintText u n ∧ n < 2 ^ 64 ∧ UintEnd u r ∧ NotHead (fun c => c = '*') r

theorem occur_none {i : List Char} (h : NoOccur i) : opt (terminated occur ws) i = .ok i none := by
  have key : (∃ e, occurStar i = .err e) ∧ (∃ e, tag "+" i = .err e) ∧ ∃ e, tag "?" i = .err e := by
    rcases h with h | ⟨u, n, r, rfl, hu, hn, hr, hs⟩
    · refine ⟨occurStar_none (h.imp fun c hc => ?_), tag_err ?_, tag_err ?_⟩
      · rcases hc with h | h
        · exact .inl h
        · exact .inr (.inl h)
      · rintro r rfl; exact h (.inr (.inr (.inl rfl)))
      · rintro r rfl; exact h (.inr (.inr (.inr rfl)))
    · obtain ⟨c, t, rfl, hc⟩ := hu.head
      refine ⟨?_, tag_err ?_, tag_err ?_⟩
      · have := uintU64_run hu hn hr
        obtain ⟨e', he'⟩ := tag_err (t := "*") (i := r) (by rintro r' rfl; exact hs rfl)
        exact ⟨e', by simp only [occurStar, mapRes, pair, opt, this, he', PR.bind]⟩
      · intro r' h; simp at h; obtain ⟨rfl, -⟩ := h; revert hc; unfold Digit; decide
      · intro r' h; simp at h; obtain ⟨rfl, -⟩ := h; revert hc; unfold Digit; decide
  obtain ⟨⟨e1, h1⟩, ⟨e2, h2⟩, ⟨e3, h3⟩⟩ := key
  simp only [opt, terminated, occur, alt, pmap, h1, h2, h3, PR.bind]

theorem alnum_hex {r : List Char} (h : NotHead (fun c => EAlpha c ∨ Digit c) r) (u : List Char) : UintEnd u r :=
  .inl (h.imp fun _ hc => hex_alnum hc)

theorem star_end (u r : List Char) : UintEnd u ('*' :: r) := by
  refine alnum_hex ?_ u
  simp only [NotHead]
  unfold EAlpha Digit
  decide

theorem occur_run {s r : List Char} {o : OccurLimit} (h : OccurText s o) (hr : AfterOccur o r) :
    occur (s ++ r) = .ok r o := by
  have hstar : ∀ i, tag "*" ('*' :: i) = .ok i ['*'] := fun i => tag_ok "*" ['*'] i rfl
  have hnone : ∀ i, NotHead Digit i → opt uintU64 i = .ok i none := by
    intro i hi
    obtain ⟨e, he⟩ := uintU64_err hi
    simp only [opt, he]
  have hsd : ∀ i, opt uintU64 ('*' :: i) = .ok ('*' :: i) none := fun i => hnone _ (by
    simp only [NotHead]; unfold Digit; decide)
  cases h with
  | optional =>
    obtain ⟨e, he⟩ := occurStar_none (i := '?' :: r) (by simp only [NotHead]; unfold Digit; decide)
    obtain ⟨e2, he2⟩ := tag_err (t := "+") (i := '?' :: r) (by intro r' h; simp at h)
    have : tag "?" ('?' :: r) = .ok r ['?'] := tag_ok "?" ['?'] r rfl
    simp only [List.cons_append, List.nil_append, occur, alt, pmap, he, he2, this, PR.bind]
  | plus =>
    obtain ⟨e, he⟩ := occurStar_none (i := '+' :: r) (by simp only [NotHead]; unfold Digit; decide)
    have : tag "+" ('+' :: r) = .ok r ['+'] := tag_ok "+" ['+'] r rfl
    simp only [List.cons_append, List.nil_append, occur, alt, pmap, he, this, PR.bind]
  | star =>
    simp only [List.cons_append, List.nil_append, occur, alt, occurStar, mapRes, pair, hsd, hstar, hnone r hr, PR.bind]
  | @lower s n hs hn =>
    have h1 : opt uintU64 (s ++ '*' :: r) = .ok ('*' :: r) (some n) := by
      simp only [opt, uintU64_run hs hn (star_end s r)]
    have h2 := hnone r (NotHead.imp hr fun c hc => .inr hc)
    simp only [List.append_assoc, List.cons_append, List.nil_append, occur, alt, occurStar, mapRes, pair, h1, hstar, h2,
      PR.bind]
    rfl
  | @upper s n hs hn =>
    have h1 : opt uintU64 (s ++ r) = .ok r (some n) := by
      simp only [opt, uintU64_run hs hn (alnum_hex hr s)]
    simp only [List.cons_append, occur, alt, occurStar, mapRes, pair, hsd, hstar, h1, PR.bind]
    rfl
  | @both s n t m hs hn ht hm =>
    have h1 : opt uintU64 (s ++ '*' :: (t ++ r)) = .ok ('*' :: (t ++ r)) (some n) := by
      simp only [opt, uintU64_run hs hn (star_end s _)]
    have h2 : opt uintU64 (t ++ r) = .ok r (some m) := by
      simp only [opt, uintU64_run ht hm (alnum_hex hr t)]
    simp only [List.append_assoc, List.cons_append, occur, alt, occurStar, mapRes, pair, h1, hstar, h2, PR.bind]
    rfl

end Cddl
