import Verif.Proofs.Balanced
import Verif.Proofs.CatAll
import Verif.Proofs.Same
import Verif.Props.C26
import Verif.Props.C44
import Verif.Props.C47

/-! # C53  Schemas can be joined -/

namespace Cddl

theorem comment_end {s : List Char} (h : s.foldl Spot.next .code = .comment) :
    ∃ a l, s = a ++ ';' :: l ∧ Outside a ∧ ∀ c ∈ l, c ≠ '\n' := by
  generalize hr : s.reverse = r
  induction r generalizing s with
  | nil =>
    have : s = [] := by simpa using hr
    subst this
    cases h
  | cons c r ih =>
    have : s = r.reverse ++ [c] := by rw [← List.reverse_reverse s, hr]; simp
    subst this
    rw [List.foldl_append, List.foldl_cons, List.foldl_nil] at h
    cases hq : r.reverse.foldl Spot.next .code with
    | comment =>
      obtain ⟨a, l, e, ha, hl⟩ := ih hq (by simp)
      refine ⟨a, l ++ [c], by rw [e]; simp, ha, ?_⟩
      intro d hd
      rcases List.mem_append.1 hd with hd | hd
      · exact hl d hd
      · rw [List.mem_singleton] at hd
        subst hd
        rintro rfl
        rw [hq] at h
        cases h
    | code =>
      rw [hq] at h
      refine ⟨r.reverse, [], ?_, hq, by simp⟩
      simp only [Spot.next] at h
      split at h
      · cases h
      · split at h
        · cases h
        · split at h
          · rename_i e; rw [e]
          · cases h
    | text =>
      rw [hq] at h
      simp only [Spot.next] at h
      split at h
      · cases h
      · split at h <;> cases h
    | bytes =>
      rw [hq] at h
      simp only [Spot.next] at h
      split at h
      · cases h
      · split at h <;> cases h
    | textEsc => rw [hq] at h; cases h
    | bytesEsc => rw [hq] at h; cases h

/-- A comment with a carriage return in its line, at the end of a text, is no white space. -/
theorem comment_stuck {l : List Char} (hl : ∀ c ∈ l, c ≠ '\n') (hr : ¬ ∀ c ∈ l, c ≠ '\r') : WsTo (';' :: l) (';' :: l) := by
  have e := List.takeWhile_append_dropWhile (p := fun c => c != '\r') (l := l)
  have hl1 : ∀ c ∈ l.takeWhile (fun c => c != '\r'), c ≠ '\r' := fun c hc => by simpa using mem_takeWhile hc
  cases hd : l.dropWhile (fun c => c != '\r') with
  | nil =>
    rw [hd, List.append_nil] at e
    rw [e] at hl1
    exact absurd hl1 hr
  | cons d l2 =>
    have : d = '\r' := by simpa using dropWhile_head hd
    subst this
    rw [hd] at e
    generalize l.takeWhile (fun c => c != '\r') = l1 at *
    subst e
    refine ⟨[], ?_⟩
    obtain ⟨e1, h3⟩ : ∃ e, multispace1 (';' :: (l1 ++ '\r' :: l2)) = .err e := takeWhile1_err (by simp [NotHead]; decide)
    have h4 : notLineEnding (l1 ++ '\r' :: l2) = .err (unparseable (l1 ++ '\r' :: l2)) := by
      have h := takeWhile_all (f := fun c => c != '\r' && c != '\n') (t := l1) (r := '\r' :: l2)
        (by intro c hc; simpa using ⟨hl1 c hc, hl c (by simp [hc])⟩) (by simp [NotHead])
      simp only [notLineEnding, h.1, h.2]
      split
      · rename_i heq
        cases heq
        exact absurd rfl (hl '\n' (by simp))
      · rfl
      · rename_i h
        exact absurd rfl (h _)
    refine .stop (e := unparseable (l1 ++ '\r' :: l2)) ?_
    simp only [alt, h3, comment, preceded, chr_ok, PR.bind, h4]

/-- Brackets match in a text that parses and does not end within a comment. -/
theorem parsed_closes {x : ParseExt} {s : List Char} {c : Ast.Cddl} (hs : Outside s)
    (h : parseCddl x (String.ofList s) = .ok c) : Closes 0 s := by
  have := C47_sound h
  rw [String.toList_ofList] at this
  rcases this with h | h
  · exact h.neutral.closes
  · exact h.neutral.closes.line hs

/-- C53.  Behind a text that parses, and does not end within a comment, any other can be put, with white space or
comments in between: the rules of the one and then those of the other are read. -/
theorem C53_join {x : ParseExt} {s t w : List Char} {c d : Ast.Cddl} (hs : Outside s) (hw : WS w) (hne : w ≠ [])
    (h : parseCddl x (String.ofList s) = .ok c) (h' : parseCddl x (String.ofList t) = .ok d) :
    parseCddl x (String.ofList (s ++ w ++ t)) = .ok (c ++ d) := by
  have hc := parsed_closes hs h
  rw [parseCddl_ok_iff] at h h' ⊢
  rw [List.append_assoc]
  exact cddl_cat hc hw hne h h'

/-- C53.  Two schemas can always be put one behind the other on separate lines. -/
theorem C53_lines {x : ParseExt} {s t : String} {c d : Ast.Cddl} (h : parseCddl x s = .ok c)
    (h' : parseCddl x t = .ok d) : parseCddl x (s ++ "\n" ++ t) = .ok (c ++ d) := by
  have e : s ++ "\n" ++ t = String.ofList (s.toList ++ ['\n'] ++ t.toList) := by
    rw [← String.toList_inj]; simp
  rw [e]
  rw [← String.ofList_toList (s := s)] at h
  rw [← String.ofList_toList (s := t)] at h'
  generalize s.toList = s at *
  generalize t.toList = t at *
  by_cases hs : Outside s
  · exact C53_join hs (.blank (.inr (.inr (.inr rfl))) .nil) (by simp) h h'
  · have hc : s.foldl Spot.next .code = .comment := by
      have := C47_sound h
      rw [String.toList_ofList] at this
      rcases this with h | h
      · exact absurd h.neutral.closes.fold hs
      · have := h.neutral.closes.fold
        rw [List.foldl_append, List.foldl_cons, List.foldl_nil] at this
        unfold Outside at hs
        cases hq : s.foldl Spot.next .code with
        | comment => rfl
        | code => exact absurd hq hs
        | _ => rw [hq] at this; cases this
    obtain ⟨a, l, rfl, ha, hl⟩ := comment_end hc
    have apart : Apart (';' :: l) := by intro c t e; cases e; exact .inr rfl
    by_cases hr : ∀ c ∈ l, c ≠ '\r'
    · have hl' : ∀ c ∈ l, c ≠ '\r' ∧ c ≠ '\n' := fun c hc => ⟨hr c hc, hl c hc⟩
      have hz : WsTo (';' :: l) [] := by
        have := wsTo_comment (r := []) (u := []) hl' (.inl rfl) (wsTo_stop trivial)
        rwa [List.append_nil] at this
      have g : Gaps (';' :: l) [] := ⟨apart, (by intro c t e; cases e), [], hz, wsTo_stop trivial⟩
      have h0 := parse_gap g x ha c h
      rw [List.append_nil] at h0
      have := C53_join (w := ';' :: l ++ '\n' :: []) ha (.comment hl' .nil) (by simp) h0 h'
      simpa using this
    · rw [parseCddl_ok_iff] at h
      obtain ⟨t, e⟩ := cddl_stuck ha apart (comment_stuck hl hr) h
      simp at e

/-- C53.  The rule table of the joined schema is the one table behind the other. -/
theorem C53_flatten {l : Libs} {s t : String} {a b : RuleTable} (h : flattenFromStr l s = .ok a)
    (h' : flattenFromStr l t = .ok b) : flattenFromStr l (s ++ "\n" ++ t) = .ok (a ++ b) := by
  unfold flattenFromStr at *
  cases hs : parseCddl l.parse s with
  | ok c =>
    cases ht : parseCddl l.parse t with
    | ok d =>
      rw [hs] at h
      rw [ht] at h'
      rw [C53_lines hs ht]
      simp only [Res.bind] at *
      rw [flatten_iff] at *
      exact h.append h'
    | _ => rw [ht] at h'; cases h'
  | _ => rw [hs] at h; cases h

/-- `k` is named in the table `t` by a rule that has no parameter of that name. -/
def NamedIn (t : RuleTable) (k : String) : Prop := ∃ p ∈ t, k ∈ p.2.node.names ∧ k ∉ p.2.params

theorem find_mem {t : RuleTable} {s : String} {d : RuleDef} (h : t.find s = some d) : (s, d) ∈ t := by
  induction t with
  | nil => cases h
  | cons p t ih =>
    obtain ⟨n, e⟩ := p
    simp only [RuleTable.find] at h
    split at h
    · rename_i heq
      rw [Option.some.injEq] at h
      subst h
      exact .tail _ (ih heq)
    · split at h
      · rename_i e
        cases h
        rw [e]
        exact .head _
      · cases h

/-- The two tables give the same answers, for a rule they agree on, if they agree on what can be reached from it. -/
theorem doValidate_agree {l : Libs} {a b : RuleTable} {rd : RuleDef} (S : String → Prop)
    (hS : ∀ k, S k → a.find k = b.find k) (hcl : ClosedUnder a.lookup S) (hn : rd.params = [] → ∀ k ∈ rd.node.names, S k)
    (v : Value) : doValidate (l.env b) v rd = doValidate (l.env a) v rd := by
  unfold doValidate
  split
  · rfl
  · rename_i hp
    have hp : rd.params = [] := by simpa using hp
    have := C26_only_reachable (l.env a) a.lookup b.lookup S hcl
      (fun k hk => by simp only [RuleTable.lookup, hS k hk]) rd.node (hn hp) v
    exact this.symm

theorem findRule_ok {l : Libs} {name s : String} {a : RuleTable} (h : flattenFromStr l s = .ok a) :
    findRule l name s = match a.find name with | some rd => .ok (a, rd) | none => .err (.missingRule name) := by
  unfold findRule
  rw [h]
  rfl

/-- Schemas whose tables agree on a set of names closed under what their rules mention give the same answers for the
rules of that set. -/
theorem verdict_agree {l : Libs} {s t : String} {a b : RuleTable} (h : flattenFromStr l s = .ok a)
    (h' : flattenFromStr l t = .ok b) (S : String → Prop) (hS : ∀ k, S k → a.find k = b.find k)
    (hcl : ClosedUnder a.lookup S) {name : String} (hn : S name) (json : String) (cbor : List UInt8) :
    validateJsonStr l name t json = validateJsonStr l name s json ∧
      validateCborBytes l name t cbor = validateCborBytes l name s cbor := by
  unfold validateJsonStr validateCborBytes
  rw [findRule_ok h, findRule_ok h', ← hS name hn]
  cases hf : a.find name with
  | none => exact ⟨rfl, rfl⟩
  | some rd =>
    have key : ∀ v, doValidate (l.env b) v rd = doValidate (l.env a) v rd := by
      refine doValidate_agree S hS hcl fun hp k hk => ?_
      exact hcl name rd hn (by simp only [RuleTable.lookup, hf]) k hk (by rw [hp]; simp)
    simp only [Res.bind, key, and_self]

/-- C53.  Adding rules behind a schema changes no answer for its rules, unless an added rule has the name of one that is
asked for, or that is mentioned in the schema: everything, up to the text of the messages, is as it was. -/
theorem C53_more_rules {l : Libs} {s t : String} {a b : RuleTable} (h : flattenFromStr l s = .ok a)
    (h' : flattenFromStr l t = .ok b) {name : String} (hn : ∀ p ∈ b, p.1 ≠ name)
    (hb : ∀ p ∈ b, ¬ NamedIn a p.1) (json : String) (cbor : List UInt8) :
    validateJsonStr l name (s ++ "\n" ++ t) json = validateJsonStr l name s json ∧
      validateCborBytes l name (s ++ "\n" ++ t) cbor = validateCborBytes l name s cbor := by
  refine verdict_agree h (C53_flatten h h') (fun k => ∀ p ∈ b, p.1 ≠ k) (fun k hk => ?_) ?_ hn json cbor
  · rw [RuleTable.find_append, RuleTable.find_none.2 hk]
    rfl
  · intro k d hk hl m hm hmp p hp e
    refine hb p hp ⟨(k, d), ?_, by rw [e]; exact hm, by rw [e]; exact hmp⟩
    simp only [RuleTable.lookup] at hl
    split at hl
    · cases hl
      exact find_mem (by assumption)
    · cases hl

/-- C53.  Putting rules in front of a schema that defines everything it mentions changes no answer for its rules. -/
theorem C53_more_rules_before {l : Libs} {s t : String} {a b : RuleTable} (h : flattenFromStr l s = .ok a)
    (h' : flattenFromStr l t = .ok b) {name : String} (hn : ∃ p ∈ b, p.1 = name)
    (hb : ∀ k, NamedIn b k → ∃ p ∈ b, p.1 = k) (json : String) (cbor : List UInt8) :
    validateJsonStr l name (s ++ "\n" ++ t) json = validateJsonStr l name t json ∧
      validateCborBytes l name (s ++ "\n" ++ t) cbor = validateCborBytes l name t cbor := by
  refine verdict_agree h' (C53_flatten h h') (fun k => ∃ p ∈ b, p.1 = k) ?_ ?_ hn json cbor
  · rintro k ⟨p, hp, e⟩
    rw [RuleTable.find_append]
    cases hf : RuleTable.find b k with
    | none => exact absurd e (RuleTable.find_none.1 hf p hp)
    | some d => rfl
  · intro k d hk hl m hm hmp
    refine hb m ⟨(k, d), ?_, hm, hmp⟩
    simp only [RuleTable.lookup] at hl
    split at hl
    · cases hl
      exact find_mem (by assumption)
    · cases hl

/-! ## Examples -/

def c53First : Ast.Cddl := [⟨"a", [], .assignType [.simple (.typename "b" []), .simple (.value (.text "]"))]⟩]
def c53Second : Ast.Cddl := [⟨"b", [], .assignType [.simple (.value (.uint 1))]⟩]

theorem c53_first : parseCddl demoExt "a=b/\"]\";(" = .ok c53First := rfl
theorem c53_second : parseCddl demoExt " b = 1 " = .ok c53Second := rfl

/-- The first text ends in a comment without a line ending. -/
example : parseCddl demoExt ("a=b/\"]\";(" ++ "\n" ++ " b = 1 ") = .ok (c53First ++ c53Second) :=
  C53_lines c53_first c53_second

/-- On the same line the second is lost. -/
example : parseCddl demoExt ("a=b/\"]\";(" ++ " b = 1 ") = .ok c53First := rfl

example : parseCddl demoExt (String.ofList ("a=b/\"]\"".toList ++ "\t;;\r\n".toList ++ " b = 1 ".toList)) =
    .ok (c53First ++ c53Second) :=
  C53_join (by decide) (.blank (.inr (.inl rfl)) (.commentCr (t := [';']) (by decide) .nil)) (by decide) rfl rfl

def c53Table : RuleTable := [("x", ⟨[], .choice [.literal (.int 7), .prelude .tstr]⟩)]
def c53More : RuleTable := [("y", ⟨[], .array [.rule "x" []]⟩)]

theorem c53_table : flattenFromStr demoLibs "x = 7 / tstr" = .ok c53Table := flattenFromStr_same (by decide +kernel)
theorem c53_more : flattenFromStr demoLibs "y = [x]" = .ok c53More := flattenFromStr_same (by decide +kernel)

example : validateJsonStr demoLibs "x" ("x = 7 / tstr" ++ "\n" ++ "y = [x]") "7" = .ok () := by
  rw [(C53_more_rules c53_table c53_more (by decide) (by
    intro p hp
    rw [c53More, List.mem_singleton] at hp
    subst hp
    rintro ⟨q, hq, h, -⟩
    rw [c53Table, List.mem_singleton] at hq
    subst hq
    revert h
    decide) "7" [7]).1]
  exact validateJsonStr_of_fuel (k := 60) (by decide +kernel) (by simp)

example : validateCborBytes demoLibs "x" ("y = [x]" ++ "\n" ++ "x = 7 / tstr") [7] = .ok () := by
  rw [(C53_more_rules_before c53_more c53_table (by decide) (by
    rintro k ⟨q, hq, h, -⟩
    rw [c53Table, List.mem_singleton] at hq
    subst hq
    cases h) "7" [7]).2]
  exact validateCborBytes_of_fuel (k := 60) (by decide +kernel) (by simp)

end Cddl
