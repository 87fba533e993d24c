import Verif.Proofs.JoinAll
import Verif.Proofs.ParseRunAll
import Verif.Proofs.ParseSlice

/-! # C40  White space and comments do not matter -/

namespace Cddl

/-- C40.  White space and comments before any text change nothing: neither the tree nor the error. -/
theorem C40_leading {x : ParseExt} {w : List Char} (hw : WS w) (s : String) :
    parseCddl x (String.ofList w ++ s) = parseCddl x s := by
  obtain ⟨u, t, t', h1, h2⟩ := ws_prefix hw s.toList
  simp only [parseCddl, allConsuming, cddl, preceded, String.toList_append, String.toList_ofList, h1, h2, PR.bind]

/-- C40.  All layouts of a tree parse alike, whatever white space and comments there are between the tokens. -/
theorem C40_layouts {x : ParseExt} {s t : List Char} {c : Ast.Cddl} (hs : GCddl x true s c) (ht : GCddl x true t c) :
    parseCddl x (String.ofList s) = parseCddl x (String.ofList t) := by
  rw [parseCddl_run hs, parseCddl_run ht]

theorem WS.safe {w : List Char} (hw : WS w) (hne : w ≠ []) (r : List Char) : Safe (w ++ r) := by
  rcases hw.head with rfl | ⟨c, t, rfl, hc⟩
  · exact absurd rfl hne
  · exact blank_safe hc

theorem GRule.after {x : ParseExt} {s q} (h : GRule x true s q) {r : List Char} (hr : Safe r) : AfterRuleVal q.val r := by
  cases h with
  | mk _ _ _ _ h =>
    cases h with
    | type h => exact hr.ty _
    | @group e h _ =>
      obtain ⟨o, v⟩ := e
      obtain ⟨sv, hv⟩ := h.val
      exact hr.val hv

theorem GRules.head {x : ParseExt} {s c} (h : GRules x true s c) : ∃ a t, s = a :: t ∧ EAlpha a := by
  have key : ∀ {s q}, GRule x true s q → ∃ c t, s = c :: t ∧ EAlpha c := by
    intro s q h
    cases h with
    | mk h _ _ _ _ => cases h with | mk h _ => exact ⟨_, _, rfl, h⟩
  cases h with
  | one h _ _ => obtain ⟨c, t, rfl, hc⟩ := key h; exact ⟨_, _, rfl, hc⟩
  | cons h _ _ _ => obtain ⟨c, t, rfl, hc⟩ := key h; exact ⟨_, _, rfl, hc⟩

theorem AfterRuleVal.ext {v : Ast.RuleVal} {a b : List Char} (h : AfterRuleVal v a) (hne : a ≠ []) (hd : a ≠ ['.']) :
    AfterRuleVal v (a ++ b) := by
  cases v with
  | assignType t => exact AfterTy.ext h hne hd
  | assignGroup e => cases e with | mk o v => exact AfterVal.ext h hne hd

/-- What follows a rule may be continued. -/
theorem after_more {x : ParseExt} {s q v s' rs} (b : List Char) (h : GRule x true s q) (hv : WS v)
    (h' : GRules x true s' rs) (ha : AfterRuleVal q.val (v ++ s')) : AfterRuleVal q.val (v ++ (s' ++ b)) := by
  by_cases hv0 : v = []
  · subst hv0
    obtain ⟨c, t, rfl, hc⟩ := h'.head
    have ha : AfterRuleVal q.val (c :: t) := ha
    rw [List.nil_append]
    refine AfterRuleVal.ext ha (by simp) fun e => ?_
    cases e
    revert hc
    unfold EAlpha
    decide
  · exact h.after (hv.safe hv0 _)

theorem GRules.between {x : ParseExt} {s t w : List Char} {c d : Ast.Cddl} (hs : GRules x true s c) (hw : WS w)
    (hne : w ≠ []) (ht : GRules x true t d) : GRules x true (s ++ w ++ t) (c ++ d) := by
  induction hs with
  | @one s r v h hv ha =>
    rw [List.append_assoc s]
    exact .cons h (hv.append hw) ht fun _ => h.after ((hv.append hw).safe (by simp [hne]) t)
  | @cons s r v s' rs h hv h' ha ih =>
    have e : s ++ v ++ s' ++ w ++ t = s ++ v ++ (s' ++ w ++ t) := by simp
    rw [e]
    refine .cons h hv ih fun _ => ?_
    rw [List.append_assoc s']
    exact after_more _ h hv h' (ha rfl)

theorem Gaps.mk' {g g' b : List Char} (hg : WS g) (hg' : WS g') (hf : Apart (g ++ b)) (hf' : Apart (g' ++ b)) :
    Gaps (g ++ b) (g' ++ b) :=
  ⟨hf, hf', by
    obtain ⟨u, hu⟩ := wsTo_total b
    exact ⟨u, hg.to hu, hg'.to hu⟩⟩

theorem Gaps.symm {r r' : List Char} (g : Gaps r r') : Gaps r' r :=
  ⟨g.right, g.left, by obtain ⟨u, h, h'⟩ := g.trim; exact ⟨u, h', h⟩⟩

/-- C40.  Wherever there is white space or a comment in a text, outside of literals, there may as well be any other:
the one text is accepted if the other is, with the same tree.  (The gaps may be empty where the text ends.) -/
theorem C40_gaps {x : ParseExt} {a g g' b : List Char} (ha : Outside a) (hg : WS g) (hg' : WS g') (hf : Apart (g ++ b))
    (hf' : Apart (g' ++ b)) (c : Ast.Cddl) :
    parseCddl x (String.ofList (a ++ g ++ b)) = .ok c ↔ parseCddl x (String.ofList (a ++ g' ++ b)) = .ok c := by
  have h := Gaps.mk' hg hg' hf hf'
  rw [List.append_assoc, List.append_assoc]
  exact ⟨parse_gap h x ha c, parse_gap h.symm x ha c⟩

/-- C40.  White space and comments may be put in behind brackets, quotes and most of the punctuation, outside of
literals, whatever follows: the one text is accepted if the other is, with the same tree. -/
theorem C40_insert {x : ParseExt} {a w b : List Char} {c : Char} (ha : Outside (a ++ [c])) (hc : Punct c) (hw : WS w)
    (d : Ast.Cddl) :
    parseCddl x (String.ofList (a ++ [c] ++ w ++ b)) = .ok d ↔ parseCddl x (String.ofList (a ++ [c] ++ b)) = .ok d := by
  obtain ⟨u, hu⟩ := wsTo_total b
  rw [List.append_assoc (a ++ [c])]
  exact ⟨parse_join ⟨hc, u, hw.to hu, hu⟩ x ha d, parse_join ⟨hc, u, hu, hw.to hu⟩ x ha d⟩

/-- C40.  White space and comments behind a text change nothing (unless it ends within a comment). -/
theorem C40_trailing {x : ParseExt} {s w : List Char} (hs : Outside s) (hw : WS w) (c : Ast.Cddl) :
    parseCddl x (String.ofList (s ++ w)) = .ok c ↔ parseCddl x (String.ofList s) = .ok c := by
  have hf : Apart (w ++ []) := by
    intro d t e
    rcases hw.head with rfl | ⟨d', t', rfl, hd⟩
    · cases e
    · cases e
      exact hd
  have := C40_gaps (x := x) (b := []) hs hw .nil hf (by intro d t e; cases e) c
  simpa using this

/-- C40.  White space and comments between the rules change nothing: with any of it between two layouts, the rules of
the one and then those of the other are read. -/
theorem C40_between {x : ParseExt} {s t w : List Char} {c d : Ast.Cddl} (hs : GCddl x true s c) (hw : WS w)
    (hne : w ≠ []) (ht : GCddl x true t d) : parseCddl x (String.ofList (s ++ w ++ t)) = .ok (c ++ d) := by
  cases hs with
  | @mk v s' _ hv h =>
    cases ht with
    | @mk u t' _ hu h' =>
      have := GCddl.mk hv (h.between (hw.append hu) (by simp [hne]) h')
      have e : v ++ s' ++ w ++ (u ++ t') = v ++ (s' ++ (w ++ u) ++ t') := by simp
      rw [e]
      exact parseCddl_run this

theorem layout_one : GCddl demoExt true "a=1".toList [⟨"a", [], .assignType [.simple (.value (.uint 1))]⟩] :=
  .mk (w := []) .nil (.one (s := "a=1".toList) (w := [])
    (.mk (n := ['a']) (ps := []) (w := []) (w' := []) (s := ['1']) (.mk (t := []) (by unfold EAlpha; decide) .nil) .none .nil .nil
      (.type (.one (.simple (.value (.uint (.dec (c := '1') (ds := []) (by unfold Digit; decide) (by decide) (by simp))
        (by decide))))))) .nil fun _ u hu => by cases hu; trivial)

theorem ws_demo : WS "\n; x = 2\n\t".toList :=
  .blank (.inr (.inr (.inr rfl))) (.comment (t := " x = 2".toList) (w := "\t".toList) (by decide) (.blank (.inr (.inl rfl)) .nil))

example : parseCddl demoExt (String.ofList "\n; x = 2\n\t".toList ++ "a=1") = parseCddl demoExt "a=1" :=
  C40_leading ws_demo "a=1"
example (c : Ast.Cddl) : parseCddl demoExt (String.ofList ("a=1".toList ++ "\n; x = 2\n\t".toList)) = .ok c ↔
    parseCddl demoExt (String.ofList "a=1".toList) = .ok c := C40_trailing (by decide) ws_demo c
-- `[1b]` is no strict layout, but a text the parser accepts
example (c : Ast.Cddl) : parseCddl demoExt (String.ofList ("a=[1b \";\"".toList ++ "\n; x = 2\n\t".toList ++ "c]".toList)) = .ok c ↔
    parseCddl demoExt (String.ofList ("a=[1b \";\"".toList ++ " ".toList ++ "c]".toList)) = .ok c :=
  C40_gaps (by decide) ws_demo (.blank (.inl rfl) .nil) (fun d t e => by cases e; exact .inl (by decide))
    (fun d t e => by cases e; exact .inl (by decide)) c
example : parseCddl demoExt (String.ofList ("a=[1b \";\"".toList ++ " ".toList ++ "c]".toList)) =
    .ok [⟨"a", [], .assignType [.simple (.array [[⟨none, .member [.simple (.value (.uint 1))]⟩,
      ⟨none, .member [.simple (.typename "b" [])]⟩, ⟨none, .member [.simple (.value (.text ";"))]⟩,
      ⟨none, .member [.simple (.typename "c" [])]⟩]])]⟩] := by rfl
example : parseCddl demoExt (String.ofList ("a=1".toList ++ "\n; x = 2\n\t".toList ++ "a=1".toList)) =
    .ok ([⟨"a", [], .assignType [.simple (.value (.uint 1))]⟩] ++ [⟨"a", [], .assignType [.simple (.value (.uint 1))]⟩]) :=
  C40_between layout_one ws_demo (by decide) layout_one

-- rules that touch
example (d : Ast.Cddl) : parseCddl demoExt (String.ofList ("a=[1b".toList ++ [']'] ++ "\n; x = 2\n\t".toList ++ "b=1".toList)) = .ok d ↔
    parseCddl demoExt (String.ofList ("a=[1b".toList ++ [']'] ++ "b=1".toList)) = .ok d :=
  C40_insert (by decide) (by decide) ws_demo d
example : parseCddl demoExt (String.ofList ("a=[1b".toList ++ [']'] ++ "b=1".toList)) =
    .ok [⟨"a", [], .assignType [.simple (.array [[⟨none, .member [.simple (.value (.uint 1))]⟩,
      ⟨none, .member [.simple (.typename "b" [])]⟩]])]⟩, ⟨"b", [], .assignType [.simple (.value (.uint 1))]⟩] := by rfl

end Cddl
