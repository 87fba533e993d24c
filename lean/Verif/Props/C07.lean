import Verif.Spec.Verdict
import Verif.Proofs.Loops

/-! # C07  Choice nesting is irrelevant -/

namespace Cddl

theorem choice_eq (env : Env) (c : Ctx) (os : List Node) (v : Value) :
    validate env v (.choice os) c =
      choiceLoop (fun n => validate env v n c) ("choice of " ++ toString os.length) os := by
  unfold validate; rw [val_eq]; rfl

/-- C07.  A nested choice may be replaced by its options, at any position. -/
theorem C07_flatten (env : Env) (c : Ctx) (v : Value) (pre mid post : List Node) :
    SameVerdict (validate env v (.choice (pre ++ .choice mid :: post)) c)
      (validate env v (.choice (pre ++ mid ++ post)) c) := by
  let f := fun n => validate env v n c
  have key : ∀ l l' : List Node, (∀ msg msg' : String, SameVerdict (choiceLoop f msg l) (choiceLoop f msg' l')) →
      SameVerdict (validate env v (.choice l) c) (validate env v (.choice l') c) := by
    intro l l' h
    rw [choice_eq, choice_eq]
    exact h _ _
  refine key _ _ fun msg msg' => ?_
  have both : ∀ l, SameVerdict (choiceLoop f msg l) (choiceLoop f msg' l) := by
    intro l
    rcases choiceLoop_split (f := f) l with h | ⟨p, o, q, h1, h2, h3⟩
    · rw [choiceLoop_all_soft h, choiceLoop_all_soft h]
      exact Or.inr ⟨_, _, rfl, rfl, rfl, rfl⟩
    · rw [h1, choiceLoop_hard h2 h3, choiceLoop_hard h2 h3]
      exact Or.inl rfl
  rcases choiceLoop_split (f := f) pre with h | ⟨p, o, q, h1, h2, h3⟩
  · rw [List.append_assoc, choiceLoop_append_soft _ h, choiceLoop_append_soft _ h]
    rcases choiceLoop_split (f := f) mid with hm | ⟨p, o, q, h1, h2, h3⟩
    · have hc : ∀ n ∈ [Node.choice mid], Soft (f n) := by
        intro n hn
        simp only [List.mem_singleton] at hn; subst hn
        exact ⟨_, (choice_eq env c mid v).trans (choiceLoop_all_soft hm), rfl⟩
      rw [choiceLoop_append_soft (l := mid) post hm]
      have := choiceLoop_append_soft (f := f) (msg := msg) (l := [Node.choice mid]) post hc
      rw [List.singleton_append] at this
      rw [this]
      exact both post
    · have hc : f (.choice mid) = f o := by
        show validate env v (.choice mid) c = _
        rw [choice_eq, h1]
        exact choiceLoop_hard h2 h3
      have e1 : choiceLoop f msg (.choice mid :: post) = f o := by
        have := choiceLoop_hard (f := f) (msg := msg) (pre := []) (post := post) (o := .choice mid)
          (by simp) (by rw [hc]; exact h3)
        rw [← hc]; exact this
      rw [e1, h1, List.append_assoc, List.cons_append, choiceLoop_hard h2 h3]
      exact Or.inl rfl
  · have e1 : ∀ msg rest, choiceLoop f msg (pre ++ rest) = f o := by
      intro msg rest
      rw [h1, List.append_assoc, List.cons_append, choiceLoop_hard h2 h3]
    rw [e1, List.append_assoc, e1]
    exact Or.inl rfl

/-- C07.  Repeating an option later changes nothing. -/
theorem C07_duplicate (env : Env) (c : Ctx) (v : Value) (pre post : List Node) (o : Node)
    (ho : o ∈ pre) :
    SameVerdict (validate env v (.choice (pre ++ o :: post)) c)
      (validate env v (.choice (pre ++ post)) c) := by
  let f := fun n => validate env v n c
  rw [choice_eq, choice_eq]
  rcases choiceLoop_split (f := f) pre with h | ⟨p, o', q, h1, h2, h3⟩
  · have hso := h o ho
    have e1 : ∀ msg, choiceLoop f msg (pre ++ o :: post) = choiceLoop f msg post := by
      intro msg
      have : pre ++ o :: post = (pre ++ [o]) ++ post := by simp
      rw [this]
      refine choiceLoop_append_soft _ fun n hn => ?_
      rcases List.mem_append.mp hn with hn | hn
      · exact h n hn
      · simp only [List.mem_singleton] at hn; subst hn; exact hso
    have e2 : ∀ msg, choiceLoop f msg (pre ++ post) = choiceLoop f msg post := fun msg =>
      choiceLoop_append_soft _ h
    show SameVerdict (choiceLoop f _ _) (choiceLoop f _ _)
    rw [e1, e2]
    rcases choiceLoop_split (f := f) post with h | ⟨p, o, q, h1, h2, h3⟩
    · rw [choiceLoop_all_soft h, choiceLoop_all_soft h]
      exact Or.inr ⟨_, _, rfl, rfl, rfl, rfl⟩
    · rw [h1, choiceLoop_hard h2 h3, choiceLoop_hard h2 h3]
      exact Or.inl rfl
  · have e1 : ∀ msg rest, choiceLoop f msg (pre ++ rest) = f o' := by
      intro msg rest
      rw [h1, List.append_assoc, List.cons_append, choiceLoop_hard h2 h3]
    show SameVerdict (choiceLoop f _ _) (choiceLoop f _ _)
    rw [e1, e1]
    exact Or.inl rfl

/-- The two bracketings of `a / b / c`, as instances. -/
theorem C07_assoc (env : Env) (c : Ctx) (v : Value) (a b d : Node) :
    SameVerdict (validate env v (.choice [.choice [a, b], d]) c) (validate env v (.choice [a, b, d]) c) ∧
    SameVerdict (validate env v (.choice [a, .choice [b, d]]) c) (validate env v (.choice [a, b, d]) c) :=
  ⟨C07_flatten env c v [] [a, b] [d], C07_flatten env c v [a] [b, d] []⟩

/-- A same verdict means: accepted by both or by neither. -/
theorem SameVerdict.accepts {r s : Res Unit} (h : SameVerdict r s) : r = .ok () ↔ s = .ok () := by
  rcases h with rfl | ⟨e, e', rfl, rfl, _, _⟩
  · rfl
  · simp

example : Accepts (demoEnv []) top (.choice [.choice [.prelude .int, .prelude .tstr], .prelude .nil])
    .null := accepts_of_fuel 60 (by decide)


theorem choiceLoop_perm {f : Node → Res Unit} {msg : String} {os os' : List Node} (hp : os.Perm os')
    (h : ∀ o ∈ os, f o = .ok () ∨ Soft (f o)) : choiceLoop f msg os = choiceLoop f msg os' := by
  have key : ∀ l : List Node, (∀ o ∈ l, f o = .ok () ∨ Soft (f o)) →
      (∃ o ∈ l, f o = .ok ()) → choiceLoop f msg l = .ok () := by
    intro l hl ⟨o, ho, hok⟩
    rcases choiceLoop_split (f := f) l with hs | ⟨p, o', q, h1, h2, h3⟩
    · exact absurd (hok ▸ hs o ho) not_soft_ok
    · rw [h1, choiceLoop_hard h2 h3]
      exact (hl o' (by rw [h1]; simp)).resolve_right h3
  have h' : ∀ o ∈ os', f o = .ok () ∨ Soft (f o) := fun o ho => h o (hp.mem_iff.mpr ho)
  by_cases hx : ∃ o ∈ os, f o = .ok ()
  · obtain ⟨o, ho, hok⟩ := hx
    rw [key os h ⟨o, ho, hok⟩, key os' h' ⟨o, hp.mem_iff.mp ho, hok⟩]
  · have hs : ∀ o ∈ os, Soft (f o) := fun o ho => (h o ho).resolve_left fun e => hx ⟨o, ho, e⟩
    rw [choiceLoop_all_soft hs, choiceLoop_all_soft fun o ho => hs o (hp.mem_iff.mpr ho)]

/-- C07.  Where no option is a schema error, the options may stand in any order: the result is the same, down to
the message. -/
theorem C07_order (env : Env) (c : Ctx) (v : Value) {os os' : List Node} (hp : os.Perm os')
    (h : ∀ o ∈ os, Accepts env c o v ∨ Mismatches env c o v) :
    validate env v (.choice os) c = validate env v (.choice os') c := by
  rw [choice_eq, choice_eq, hp.length_eq]
  exact choiceLoop_perm hp h

/-- A schema error makes the order matter: `int / missing` accepts 3, `missing / int` reports the rule. -/
theorem C07_order_needs : Accepts (demoEnv []) top (.choice [.prelude .int, .rule "missing" []]) (.integer 3) ∧
    validate (demoEnv []) (.integer 3) (.choice [.rule "missing" [], .prelude .int]) top =
      .err (.missingRule "missing") :=
  ⟨accepts_of_fuel 60 (by decide), validate_of_fuel 60 (by decide)⟩

example : ∀ o ∈ [Node.prelude .int, .prelude .tstr, .prelude .nil],
    Accepts (demoEnv []) top o (.text "a") ∨ Mismatches (demoEnv []) top o (.text "a") := by
  intro o ho
  simp only [List.mem_cons, List.not_mem_nil, or_false] at ho
  rcases ho with rfl | rfl | rfl
  · exact .inr ⟨_, validate_of_fuel 60 ⟨rfl, by simp⟩, rfl⟩
  · exact .inl (accepts_of_fuel 60 (by decide))
  · exact .inr ⟨_, validate_of_fuel 60 ⟨rfl, by simp⟩, rfl⟩

end Cddl
