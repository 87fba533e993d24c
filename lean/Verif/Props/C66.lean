import Verif.Proofs.Calls
import Verif.Props.C42

/-! # C66  How often the parser reads the same text -/

namespace Cddl

open Ast (Ty Ty1 Ty2 MemberKeyVal GrpEntVal GrpEnt Group GrpChoice RuleVal)

variable {x : ParseExt}

/-- C66.  The counting parser is the parser: it gives the same results, and the number of calls of `type2` besides. -/
theorem C66_same (s : String) : (parseCddlC x s).1 = parseCddl x s := parseCddlC_fst s

/-- `1`, `([1],)`, `([([1],)],)`, … -/
def parensText : Nat → List Char
  | 0 => ['1']
  | n + 1 => '(' :: '[' :: (parensText n ++ [']', ',', ')'])

/-- What these texts mean. -/
def parensVal : Nat → GrpEntVal
  | 0 => .member [.simple (.value (.uint 1))]
  | n + 1 => .parens [[.mk none (.member [.simple (.array [[.mk none (parensVal n)]])])]]

theorem one_text : ValueText x true ['1'] (.uint 1) :=
  .uint (.dec (c := '1') (ds := []) (by unfold Digit; decide) (by decide) (by simp)) (by decide)

theorem parens_layout (n : Nat) : GVal x true (parensText n) (parensVal n) := by
  induction n with
  | zero => exact .member (s := ['1']) (w := []) (.one (.simple (.value one_text))) .nil (by simp)
  | succ n ih =>
    have h := GTy2.array (w := []) (w' := []) .nil (.one (.cons (.plain ih) (.none .nil) .nil (by simp))) .nil
    have := GVal.comma (w := []) (v := []) (v' := []) (w' := []) .nil (.one (.simple h)) .nil .nil .nil
    simpa [parensText, parensVal] using this

theorem parensText_length (n : Nat) : (parensText n).length = 5 * n + 1 := by
  induction n with
  | zero => rfl
  | succ n ih => simp [parensText, ih]; omega

theorem array_step (k : Nat) (i : List Char) :
    (grpentC (parsersC x k) (trim i)).2 ≤ ((parsersC x (k + 2)).type2 ('[' :: i)).2 :=
  Nat.le_trans (groupC_le (parsersC x k) (trim i)) (Nat.le_trans (Nat.le_succ _) (type2C_array (same_parsers (k + 1)) i))

theorem parens_calls (n : Nat) : ∀ {k : Nat} {rest : List Char}, 2 * (parensText n ++ ']' :: rest).length + 2 ≤ k →
    2 ^ n ≤ (grpentC (parsersC x k) (parensText n ++ ']' :: rest)).2 := by
  induction n with
  | zero =>
    intro k rest hk
    obtain ⟨k, rfl⟩ : ∃ k', k = k' + 1 := ⟨k - 1, by omega⟩
    refine Nat.le_trans ?_ (grpentC_type2 _ ((parens_layout (x := x) 0).noOccur ((safe_punct (by decide) _).val (parens_layout (x := x) 0))))
    exact Nat.succ_le_succ (Nat.zero_le _)
  | succ n ih =>
    intro k rest hk
    have hl := hk
    simp [parensText] at hl
    obtain ⟨k, rfl⟩ : ∃ k', k = k' + 3 := ⟨k - 3, by omega⟩
    have hs : trim (parensText n ++ ']' :: ',' :: ')' :: ']' :: rest) = parensText n ++ ']' :: ',' :: ')' :: ']' :: rest :=
      ((parens_layout (x := x) n).starts.app _).trim
    have hb : trim ('[' :: (parensText n ++ ']' :: ',' :: ')' :: ']' :: rest)) = '[' :: (parensText n ++ ']' :: ',' :: ')' :: ']' :: rest) :=
      trim_noWs (noWs_punct (by decide) _)
    have ih := ih (k := k) (rest := ',' :: ')' :: ']' :: rest) (by simp; omega)
    have h1 := array_step (x := x) k (parensText n ++ ']' :: ',' :: ')' :: ']' :: rest)
    rw [hs] at h1
    obtain ⟨e, he⟩ := (comp_rec x _).np (']' :: rest) (Nat.le_refl _) (parens_layout (n + 1))
    rw [← (parsers_enough hk).1] at he
    have e2 : parensText (n + 1) ++ ']' :: rest = '(' :: '[' :: (parensText n ++ ']' :: ',' :: ')' :: ']' :: rest) := by
      simp [parensText]
    rw [e2] at he ⊢
    have h2 := grpentC_twice (same_parsers (k + 3)) he
    have h3 := type2C_parens (x := x) (same_parsers (x := x) (k + 2)) ('[' :: (parensText n ++ ']' :: ',' :: ')' :: ']' :: rest))
    have h4 := tyC_le (parsersC x (k + 2)) ('[' :: (parensText n ++ ']' :: ',' :: ')' :: ']' :: rest))
    have h5 := groupC_le (parsersC x (k + 2)) ('[' :: (parensText n ++ ']' :: ',' :: ')' :: ']' :: rest))
    have h6 := grpentC_type2 (parsersC x (k + 2)) (i := '[' :: (parensText n ++ ']' :: ',' :: ')' :: ']' :: rest))
      (.inl (notHead_cons (by unfold Digit; decide) _))
    rw [hb] at h2 h3
    have h7 : ((parsersC x (k + 3)).type2 ('(' :: '[' :: (parensText n ++ ']' :: ',' :: ')' :: ']' :: rest))).2 =
      (type2C x (parsersC x (k + 2)) ('(' :: '[' :: (parensText n ++ ']' :: ',' :: ')' :: ']' :: rest))).2 := rfl
    have h8 : ((parsersC x (k + 3)).group ('[' :: (parensText n ++ ']' :: ',' :: ')' :: ']' :: rest))).2 =
      (groupC (parsersC x (k + 2)) ('[' :: (parensText n ++ ']' :: ',' :: ')' :: ']' :: rest))).2 := rfl
    rw [Nat.pow_succ]
    omega

/-- The text of a rule `a=T`. -/
def ruleA (s : List Char) : String := String.ofList ('a' :: '=' :: s)

theorem head_a (s : List Char) : pair ident (opt genericParm) ('a' :: '=' :: s) = .ok ('=' :: s) (['a'], none) := by
  have h1 : ident ('a' :: '=' :: s) = .ok ('=' :: s) ['a'] :=
    ident_run (s := ['a']) (r := '=' :: s) (.mk (by unfold EAlpha; decide) .nil)
      (AfterIdent.end (safe_punct (by decide) s).afterIdent)
  obtain ⟨e, h2⟩ : ∃ e, tag "<" ('=' :: s) = .err e := tag_err (by rintro r h; simp at h)
  simp only [pair, h1, opt, genericParm, delimited, preceded, h2, PR.bind]

/-- The calls for the type of a rule are calls for the text. -/
theorem ruleA_le {s : List Char} (hs : trim s = s) : ((parserRecC x).type2 s).2 ≤ (parseCddlC x (ruleA s)).2 := by
  have e : (ruleA s).toList = 'a' :: '=' :: s := by simp [ruleA]
  have h1 : trim ('a' :: '=' :: s) = 'a' :: '=' :: s := (starter_ealpha (by unfold EAlpha; decide)).trim _
  have h2 : trim ('=' :: s) = '=' :: s := trim_noWs (noWs_punct (by decide) _)
  obtain ⟨t1, w1⟩ := free_ws (i := 'a' :: '=' :: s)
  obtain ⟨t2, w2⟩ := free_ws (i := '=' :: s)
  obtain ⟨t3, w3⟩ := free_ws (i := s)
  rw [h1] at w1
  rw [h2] at w2
  rw [hs] at w3
  have h3 : (free (tag "=") ('=' :: s)).1 = .ok s ['='] := tag_ok "=" ['='] s rfl
  have h4 : (free (pair ident (opt genericParm)) ('a' :: '=' :: s)).1 = .ok ('=' :: s) (['a'], none) := head_a s
  simp only [parseCddlC, e]
  refine Nat.le_trans ?_ (bindC_le _ _)
  refine Nat.le_trans ?_ (precededC_ok _ w1)
  refine Nat.le_trans ?_ (Nat.le_trans (terminatedC_le (ruleC x) (free ws) _) (bindC_le _ _))
  unfold ruleC
  rw [pmapC_snd]
  refine Nat.le_trans ?_ (pairC_ok _ h4)
  refine Nat.le_trans ?_ (precededC_ok _ w2)
  refine Nat.le_trans ?_ (precededC_ok _ h3)
  refine Nat.le_trans ?_ (precededC_ok _ w3)
  refine Nat.le_trans ?_ (altC_le _ _ _)
  rw [pmapC_snd]
  exact tyC_le _ _

/-- C66.  The time the parser takes is not bounded by any polynomial: reading the `5 n + 5` characters of
`a=[([([…1…],)],)]` takes at least `2 ^ n` calls of `type2`, since a group in parentheses is read as a type first, and
again as a group when the comma is reached.  The text is in order. -/
theorem C66_exponential (n : Nat) :
    (ruleA ('[' :: (parensText n ++ [']']))).toList.length = 5 * n + 5 ∧
    parseCddl x (ruleA ('[' :: (parensText n ++ [']']))) =
      .ok [⟨"a", [], .assignType [.simple (.array [[.mk none (parensVal n)]])]⟩] ∧
    2 ^ n ≤ (parseCddlC x (ruleA ('[' :: (parensText n ++ [']'])))).2 := by
  refine ⟨by simp [ruleA, parensText_length], ?_, ?_⟩
  · refine parseCddl_run ?_
    have h := GTy2.array (w := []) (w' := []) .nil (.one (.cons (.plain (parens_layout (x := x) n)) (.none .nil) .nil (by simp))) .nil
    have hr := GRule.mk (n := ['a']) (w := []) (w' := []) (.mk (by unfold EAlpha; decide) .nil) .none .nil .nil
      (GRuleVal.type (.one (.simple h)))
    have := GCddl.mk (w := []) .nil (.one (w := []) hr .nil (by
      rintro - u hu
      simp at hu
      subst hu
      trivial))
    simpa using this
  · refine Nat.le_trans ?_ (ruleA_le (trim_noWs (noWs_punct (by decide) _)))
    rw [parserRecC_type2]
    obtain ⟨k, hk⟩ : ∃ k, 2 * ('[' :: (parensText n ++ [']'])).length + 2 = k + 2 := ⟨_, rfl⟩
    rw [hk]
    refine Nat.le_trans ?_ (array_step k _)
    rw [((parens_layout (x := x) n).starts.app _).trim]
    exact parens_calls n (by simp at hk ⊢; omega)

/-! ## Nested arrays and maps -/

/-- The brackets of a map or of an array. -/
def brackets : Bool → Char × Char
  | true => ('{', '}')
  | false => ('[', ']')

/-- `int` in brackets, the outermost first. -/
def boxText : List Bool → List Char
  | [] => ['i', 'n', 't']
  | b :: bs => (brackets b).1 :: (boxText bs ++ [(brackets b).2])

/-- What these texts mean. -/
def boxTy : List Bool → Ty2
  | [] => .typename "int" []
  | true :: bs => .map [[.mk none (.member [.simple (boxTy bs)])]]
  | false :: bs => .array [[.mk none (.member [.simple (boxTy bs)])]]

theorem boxText_starts (bs : List Bool) : Starts (boxText bs) := by
  cases bs with
  | nil => exact ⟨_, _, rfl, starter_ealpha (by unfold EAlpha; decide)⟩
  | cons b bs => exact ⟨_, _, rfl, by unfold Starter; cases b <;> decide⟩

/-- What follows a type here. -/
def ClosesHere (rest : List Char) : Prop := rest = [] ∨ ∃ b u, rest = (brackets b).2 :: u

theorem ClosesHere.trim {rest : List Char} (h : ClosesHere rest) : Cddl.trim rest = rest := by
  rcases h with rfl | ⟨b, u, rfl⟩
  · exact trim_nil
  · exact trim_noWs (noWs_punct (by cases b <;> decide) _)

theorem ClosesHere.notHead {rest : List Char} (h : ClosesHere rest) {p : Char → Prop} (hp : ∀ b, ¬ p (brackets b).2) : NotHead p rest := by
  rcases h with rfl | ⟨b, u, rfl⟩
  · trivial
  · exact hp b

theorem closesHere_tag {rest : List Char} (h : ClosesHere rest) {t : String} (ht : t.toList ≠ []) (hp : ∀ b, t.toList.head? ≠ some (brackets b).2) :
    ∃ e, tag t rest = .err e := by
  refine tag_err ?_
  rintro r rfl
  rcases h with h | ⟨b, u, h⟩
  · simp at h; exact ht (by simp [h.1])
  · have hp := hp b
    cases ht' : t.toList with
    | nil => exact ht ht'
    | cons c l => rw [ht'] at h hp; simp at h hp; exact hp h.1

theorem type1C_closes {rc : PCRec} {i rest : List Char} {t m} (hr : ClosesHere rest) (h : rc.type2 i = (.ok rest t, m)) :
    type1C rc i = (.ok rest (.simple t), m) := by
  obtain ⟨e1, h1⟩ := closesHere_tag hr (t := "...") (by decide) (by decide)
  obtain ⟨e2, h2⟩ := closesHere_tag hr (t := "..") (by decide) (by decide)
  obtain ⟨e3, h3⟩ := closesHere_tag hr (t := ".") (by decide) (by decide)
  obtain ⟨t4, h4⟩ := ws_trim rest
  rw [hr.trim] at h4
  simp [type1C, pmapC, pairC, bindC, h, optC, precededC, free, h4, rangeOrControlOpC, alt, controlOp, preceded, h1, h2, h3, makeType1]

theorem slash_closes {rest : List Char} (hr : ClosesHere rest) : ∃ e, slash rest = .err e :=
  slash_none (by rw [hr.trim]; exact hr.notHead (by decide))

theorem tyC_closes {rc : PCRec} {i rest : List Char} {t m} (hr : ClosesHere rest) (h : rc.type2 i = (.ok rest t, m)) :
    tyC rc i = (.ok rest [.simple t], m) := by
  obtain ⟨e, h2⟩ := slash_closes hr
  simp [tyC, sepList1C, type1C_closes hr h, bindC, sepLoopC, free, h2]

theorem memberRestC_closes {rc : PCRec} {rest : List Char} (hr : ClosesHere rest) (t : Ty1) :
    memberRestC rc t rest = (.ok rest (.member [t]), 0) := by
  obtain ⟨e, h2⟩ := slash_closes hr
  obtain ⟨e1, h1⟩ := closesHere_tag hr (t := "^") (by decide) (by decide)
  obtain ⟨e3, h3⟩ := closesHere_tag hr (t := "=>") (by decide) (by decide)
  simp [memberRestC, ifOkC, arrowTailC, pairC, bindC, free, opt, terminated, h1, precededC, h3, many0C, many0LoopC, h2]

theorem memberkeyTailC_closes {rc : PCRec} {rest : List Char} (hr : ClosesHere rest) :
    ∃ e, memberkeyTailC rc rest = (.err e, 0) := by
  obtain ⟨e, h⟩ := closesHere_tag hr (t := ":") (by decide) (by decide)
  exact ⟨e, by simp [memberkeyTailC, precededC, bindC, free, pair, h]⟩

theorem grpentC_closes {rc : PCRec} {i rest : List Char} {t m} (hr : ClosesHere rest) (hi : NoOccur i)
    (h : rc.type2 i = (.ok rest t, m)) : grpentC rc i = (.ok rest (.mk none (.member [.simple t])), m) := by
  obtain ⟨t4, h4⟩ := ws_trim rest
  rw [hr.trim] at h4
  obtain ⟨e, h5⟩ := memberkeyTailC_closes (rc := rc) hr
  have : grpentMemberC rc i = (.ok rest (.member [.simple t]), m) := by
    simp only [grpentMemberC, terminatedC, bindC, type1C_closes hr h, free, h4]
    cases t <;> simp [h5, ifOkC, memberRestC_closes hr]
  simp [grpentC, pmapC, pairC, bindC, free, occur_none hi, grpentValC, altC, this]

/-- At a closing bracket no entry begins; it takes a call to see that. -/
theorem grpentC_end {k : Nat} (b : Bool) (u : List Char) : ∃ e, grpentC (parsersC x (k + 1)) ((brackets b).2 :: u) = (.err e, 1) := by
  have hr : ClosesHere ((brackets b).2 :: u) := .inr ⟨b, u, rfl⟩
  generalize hcb : (brackets b).2 = cb at hr ⊢
  have hcb : cb = '}' ∨ cb = ']' := by subst hcb; cases b <;> simp [brackets]
  obtain ⟨e1, h1⟩ := value_err x (i := cb :: u) (notHead_cons (by rcases hcb with rfl | rfl <;> unfold Digit <;> decide) _) (by rintro r h; rcases hcb with rfl | rfl <;> simp at h)
    (by rintro r h; rcases hcb with rfl | rfl <;> simp at h) (by rintro r h; rcases hcb with rfl | rfl <;> simp at h)
  obtain ⟨e2, h2⟩ := ident_err (i := cb :: u) (notHead_cons (by rcases hcb with rfl | rfl <;> unfold EAlpha <;> decide) _)
  obtain ⟨e3, h3⟩ := chr_err (c := '(') (i := cb :: u) (notHead_cons (by rcases hcb with rfl | rfl <;> decide) _)
  obtain ⟨e4, h4⟩ := chr_err (c := '{') (i := cb :: u) (notHead_cons (by rcases hcb with rfl | rfl <;> decide) _)
  obtain ⟨e5, h5⟩ := chr_err (c := '[') (i := cb :: u) (notHead_cons (by rcases hcb with rfl | rfl <;> decide) _)
  obtain ⟨e6, h6⟩ := closesHere_tag hr (t := "~") (by decide) (by decide)
  obtain ⟨e7, h7⟩ := closesHere_tag hr (t := "&") (by decide) (by decide)
  have h8 : (parsersC x (k + 1)).type2 (cb :: u) = (.err e7, 1) := by
    simp [parsersC, type2C, type2AltsC, altC, free, pmap, h1, pmapC, nameGenericC, pairC, bindC, h2, type2ParensC, type2MapC,
      type2ArrayC, delimitedC, precededC, h3, h4, h5, h6, h7]
  have h9 := occur_none (i := cb :: u) (.inl (notHead_cons (by rcases hcb with rfl | rfl <;> unfold Digit <;> decide) _))
  exact ⟨e3, by
    simp [grpentC, pmapC, pairC, bindC, free, h9, grpentValC, altC, grpentMemberC, terminatedC, type1C, h8, pmap, h2, inParensC,
      delimitedC, precededC, h3]⟩

theorem box_calls (bs : List Bool) : ∀ {k : Nat} {rest : List Char}, 2 * bs.length + 1 ≤ k → ClosesHere rest →
    (parsersC x k).type2 (boxText bs ++ rest) = (.ok rest (boxTy bs), 2 * bs.length + 1) := by
  induction bs with
  | nil =>
    intro k rest hk hr
    obtain ⟨k, rfl⟩ : ∃ k', k = k' + 1 := ⟨k - 1, by omega⟩
    have hi : Ident ['i', 'n', 't'] := ident_of (by unfold EAlpha; decide) (by unfold EAlpha Digit; decide)
    obtain ⟨e1, h1⟩ := value_ident x hi (rest := rest) (hr.notHead (by unfold Digit; decide))
    have h2 := ident_run (r := rest) hi (hr.notHead (by unfold EAlpha Digit; decide))
    obtain ⟨e3, h3⟩ := closesHere_tag hr (t := "<") (by decide) (by decide)
    simp only [List.cons_append, List.nil_append] at h1 h2
    simp [parsersC, type2C, type2AltsC, altC, free, pmap, boxText, h1, pmapC, nameGenericC, pairC, bindC, h2, optC, genericArgC,
      delimitedC, precededC, pair, h3, boxTy]
  | cons b bs ih =>
    intro k rest hk hr
    rw [List.length_cons] at hk ⊢
    obtain ⟨k, rfl⟩ : ∃ k', k = k' + 3 := ⟨k - 3, by omega⟩
    have hc : ClosesHere ((brackets b).2 :: rest) := .inr ⟨b, rest, rfl⟩
    have e : boxText (b :: bs) ++ rest = (brackets b).1 :: (boxText bs ++ (brackets b).2 :: rest) := by simp [boxText]
    have h1 := ih (k := k + 1) (by omega) hc
    have h2 : NoOccur (boxText bs ++ (brackets b).2 :: rest) := by
      cases bs with
      | nil => exact .inl (notHead_cons (by unfold Digit; decide) _)
      | cons b' bs => exact .inl (notHead_cons (by unfold Digit; cases b' <;> decide) _)
    have h3 := grpentC_closes hc h2 h1
    obtain ⟨e4, h4⟩ := grpentC_end (x := x) (k := k) b rest
    obtain ⟨t5, h5⟩ := ws_trim ((brackets b).2 :: rest)
    rw [hc.trim] at h5
    obtain ⟨t6, h6⟩ := ws_trim (boxText bs ++ (brackets b).2 :: rest)
    rw [((boxText_starts bs).app _).trim] at h6
    obtain ⟨e', h'⟩ := closesHere_tag hc (t := ",") (by decide) (by decide)
    have h7 : optcom ((brackets b).2 :: rest) = .ok ((brackets b).2 :: rest) () := by simp [optcom, pmap, pair, h5, opt, h']
    obtain ⟨e8, h8⟩ := closesHere_tag hc (t := "//") (by decide) (by decide)
    have hl : ¬ ((brackets b).2 :: rest).length = (boxText bs ++ (brackets b).2 :: rest).length := by
      have := List.length_pos_iff.2 (boxText_starts bs).ne
      simp only [List.length_append, List.length_cons]; omega
    have h9 : groupC (parsersC x (k + 1)) (boxText bs ++ (brackets b).2 :: rest) =
        (.ok ((brackets b).2 :: rest) [[.mk none (.member [.simple (boxTy bs)])]], 2 * bs.length + 2) := by
      obtain ⟨l, hl'⟩ : ∃ l, (boxText bs ++ (brackets b).2 :: rest).length = l + 1 := ⟨(boxText bs).length + rest.length, by simp; omega⟩
      have : grpchoiceC (parsersC x (k + 1)) (boxText bs ++ (brackets b).2 :: rest) =
          (.ok ((brackets b).2 :: rest) [.mk none (.member [.simple (boxTy bs)])], 2 * bs.length + 2) := by
        rw [grpchoiceC, many0C, hl']
        simp only [many0LoopC, terminatedC, bindC, h3, free, h7, hl, if_false, h4]
      simp [groupC, pmapC, pairC, bindC, this, many0C, many0LoopC, precededC, free, delimited, preceded, terminated, h5, h8]
    obtain ⟨⟨e10, h10⟩, -⟩ := open_err x (parsers x 0) (c := (brackets b).1) (by cases b <;> decide) (boxText bs ++ (brackets b).2 :: rest)
    obtain ⟨e11, h11⟩ := ident_err (i := (brackets b).1 :: (boxText bs ++ (brackets b).2 :: rest)) (notHead_cons (by unfold EAlpha; cases b <;> decide) _)
    obtain ⟨e12, h12⟩ := chr_err (c := '(') (i := (brackets b).1 :: (boxText bs ++ (brackets b).2 :: rest))
      (notHead_cons (by cases b <;> decide) _)
    have h14 : (parsersC x (k + 2)).group (boxText bs ++ (brackets b).2 :: rest) = _ := h9
    rw [e]
    show type2C x (parsersC x (k + 2)) _ = _
    cases b with
    | true =>
      simp only [brackets] at *
      simp [type2C, type2AltsC, altC, free, pmap, h10, pmapC, nameGenericC, pairC, bindC, h11, type2ParensC, type2MapC,
        delimitedC, precededC, terminatedC, h12, chr_ok, h6, h14, h5, boxTy]
      omega
    | false =>
      simp only [brackets] at *
      obtain ⟨e13, h13⟩ := chr_err (c := '{') (i := '[' :: (boxText bs ++ ']' :: rest)) (notHead_cons (by decide) _)
      simp [type2C, type2AltsC, altC, free, pmap, h10, pmapC, nameGenericC, pairC, bindC, h11, type2ParensC, type2MapC,
        type2ArrayC, delimitedC, precededC, terminatedC, h12, h13, chr_ok, h6, h14, h5, boxTy]
      omega

/-- C66.  For nested arrays and maps, the case that the parser was arranged for (/repo/src/parser/mod.rs:598-636), the number of calls is
linear: exactly two for each pair of brackets, and one for the innermost type. -/
theorem C66_brackets (bs : List Bool) :
    parseCddlC x (ruleA (boxText bs)) = (.ok [⟨"a", [], .assignType [.simple (boxTy bs)]⟩], 2 * bs.length + 1) := by
  have h0 : (boxText bs).length = 2 * bs.length + 3 := by
    induction bs with
    | nil => rfl
    | cons b bs ih => simp [boxText, ih]; omega
  have h1 : (parserRecC x).type2 (boxText bs) = (.ok [] (boxTy bs), 2 * bs.length + 1) := by
    rw [parserRecC_type2]
    simpa using box_calls (x := x) bs (rest := []) (k := 2 * (boxText bs).length + 2) (by omega) (.inl rfl)
  have h2 := tyC_closes (.inl rfl) h1
  have e : (ruleA (boxText bs)).toList = 'a' :: '=' :: boxText bs := by simp [ruleA]
  have t1 : trim ('a' :: '=' :: boxText bs) = 'a' :: '=' :: boxText bs := (starter_ealpha (by unfold EAlpha; decide)).trim _
  have t2 : trim ('=' :: boxText bs) = '=' :: boxText bs := trim_noWs (noWs_punct (by decide) _)
  obtain ⟨_, w1⟩ := ws_trim ('a' :: '=' :: boxText bs)
  obtain ⟨_, w2⟩ := ws_trim ('=' :: boxText bs)
  obtain ⟨_, w3⟩ := ws_trim (boxText bs)
  obtain ⟨_, w4⟩ := ws_trim []
  rw [t1] at w1
  rw [t2] at w2
  rw [(boxText_starts bs).trim] at w3
  rw [trim_nil] at w4
  have h3 : tag "=" ('=' :: boxText bs) = .ok (boxText bs) ['='] := tag_ok "=" ['='] _ rfl
  have h4 := head_a (boxText bs)
  obtain ⟨e5, h5⟩ := ident_err (i := []) trivial
  have h6 : terminatedC (ruleC x) (free ws) ('a' :: '=' :: boxText bs) =
      (.ok [] ⟨"a", [], .assignType [.simple (boxTy bs)]⟩, 2 * bs.length + 1) := by
    simp [terminatedC, bindC, ruleC, pmapC, pairC, free, h4, precededC, w2, ruleValC, h3, w3, altC, h2, w4]
  have h7 : terminatedC (ruleC x) (free ws) [] = (.err e5, 0) := by
    simp [terminatedC, bindC, ruleC, pmapC, pairC, free, pair, h5]
  simp only [parseCddlC, e]
  simp [allConsumingC, cddlC, precededC, free, w1, bindC, many1C, h6, many0C, many0LoopC, h7, PR.toRes]

/-! ## Examples -/

/-- 40 nested parentheses: a text of 205 characters, for which `type2` is called more than a thousand billion times. -/
example : (ruleA ('[' :: (parensText 40 ++ [']']))).toList.length = 205 ∧
    1000000000000 < (parseCddlC demoExt (ruleA ('[' :: (parensText 40 ++ [']'])))).2 :=
  ⟨(C66_exponential (x := demoExt) 40).1, Nat.lt_of_lt_of_le (by decide) (C66_exponential 40).2.2⟩

example : ruleA ('[' :: (parensText 2 ++ [']'])) = "a=[([([1],)],)]" := by decide

/-- The example of the source, and one with maps. -/
example : (parseCddlC demoExt "a=[[[[int]]]]").2 = 9 ∧ (parseCddlC demoExt "a=[{[{int}]}]").2 = 9 :=
  ⟨congrArg Prod.snd (C66_brackets (x := demoExt) [false, false, false, false]),
    congrArg Prod.snd (C66_brackets (x := demoExt) [false, true, false, true])⟩

end Cddl
