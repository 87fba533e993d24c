import Verif.Proofs.Loops
import Verif.Spec.Choiceify
import Verif.Spec.Verdict

/-! # C33  Group-to-choice operator -/

namespace Cddl

/-- The first result that is not an ordinary mismatch. -/
noncomputable def firstHard : List (Res Unit) → Option (Res Unit)
  | [] => none
  | r :: rs => open Classical in if Soft r then firstHard rs else some r

theorem firstHard_append (a b : List (Res Unit)) : firstHard (a ++ b) = (firstHard a).or (firstHard b) := by
  induction a with
  | nil => rfl
  | cons r a ih =>
    simp only [List.cons_append, firstHard]
    split
    · exact ih
    · rfl

theorem choiceLoop_firstHard (f : Node → Res Unit) (msg : String) (l : List Node) :
    choiceLoop f msg l = (firstHard (l.map f)).getD (.err (.mismatch msg)) := by
  induction l with
  | nil => rfl
  | cons n ns ih =>
    by_cases h : Soft (f n)
    · rw [show n :: ns = [n] ++ ns from rfl, choiceLoop_append_soft ns (by simpa using h), ih]
      simp [firstHard, h]
    · have := choiceLoop_hard (f := f) (msg := msg) (pre := []) (post := ns) (by simp) h
      rw [show n :: ns = [] ++ n :: ns from rfl, this]
      simp [firstHard, h]

theorem firstHard_single_hard {r : Res Unit} {o : Option (Res Unit)} {msg : String}
    (h : r = o.getD (.err (.mismatch msg))) (ho : ∀ x, o = some x → ¬ Soft x) : firstHard [r] = o := by
  subst h
  cases o with
  | none =>
    have : Soft (.err (.mismatch msg)) := ⟨_, rfl, rfl⟩
    simp [firstHard, this]
  | some x => simp [firstHard, ho x rfl]

theorem firstHard_hard {l : List (Res Unit)} {x : Res Unit} (h : firstHard l = some x) : ¬ Soft x := by
  induction l with
  | nil => cases h
  | cons r rs ih =>
    simp only [firstHard] at h
    split at h
    · exact ih h
    · rename_i hr; cases h; exact hr

section
variable {env : Env} (v : Value)

/-- The result of each listed type. -/
noncomputable def results (env : Env) (v : Value) (ts : List (Ctx × Node)) : List (Res Unit) :=
  ts.map fun t => validate env v t.2 t.1

mutual
theorem lists_item : ∀ {c : Ctx} {m : Node} {ts : List (Ctx × Node)}, Lists env c m ts →
    firstHard [choiceifyItem (lim env) v c m] = firstHard (results env v ts)
  | _, _, _, .keyed c k t cut => rfl
  | c, _, ts, .group (s := s) (as := as) (ms := ms) (c' := c') h hl => by
    have ih := lists_all hl
    refine firstHard_single_hard (msg := "choiceified group of " ++ toString ms.length) ?_
      fun x hx => firstHard_hard hx
    simp only [choiceifyItem]
    rw [chf_eq]
    simp only [chfBody, h, Res.ofExcept, Res.bind, validateChoiceifyMembers]
    rw [choiceLoop_firstHard, ih]
  | c, _, ts, .alias (s := s) (as := as) (s' := s') (as' := as') h hl => by
    have ih := lists_item hl
    rw [← ih]
    simp only [choiceifyItem]
    rw [chf_eq]
    simp only [chfBody, h, Res.ofExcept, Res.bind]
  | c, t, _, .plain _ h1 h2 => by
    cases t with
    | rule s as => exact absurd rfl (h1 s as)
    | keyValue k n cut => exact absurd rfl (h2 k n cut)
    | _ => rfl
theorem lists_all : ∀ {c : Ctx} {ms : List Node} {ts : List (Ctx × Node)}, ListsAll env c ms ts →
    firstHard (ms.map (choiceifyItem (lim env) v c)) = firstHard (results env v ts)
  | _, _, _, .nil _ => rfl
  | c, _, _, .cons (m := m) (ms := ms) (ts := ts) (us := us) h hs => by
    have h1 := lists_item h
    have h2 := lists_all hs
    rw [results, List.map_append, firstHard_append, ← results, ← results, ← h1, ← h2, ← firstHard_append]
    rfl
end

end

theorem firstHard_some {l : List (Ctx × Node)} {f : Ctx × Node → Res Unit} {x : Res Unit} :
    firstHard (l.map f) = some x ↔
      ¬ Soft x ∧ ∃ pre t post, l = pre ++ t :: post ∧ f t = x ∧ ∀ p ∈ pre, Soft (f p) := by
  induction l with
  | nil => simp [firstHard]
  | cons t l ih =>
    simp only [List.map_cons, firstHard]
    by_cases h : Soft (f t)
    · rw [if_pos h, ih]
      refine and_congr_right fun hx => ?_
      constructor
      · rintro ⟨pre, u, post, rfl, h1, h2⟩
        exact ⟨t :: pre, u, post, rfl, h1, fun p hp => by
          rcases List.mem_cons.mp hp with rfl | hp
          · exact h
          · exact h2 p hp⟩
      · rintro ⟨pre, u, post, h0, h1, h2⟩
        cases pre with
        | nil =>
          simp only [List.nil_append, List.cons.injEq] at h0
          obtain ⟨rfl, rfl⟩ := h0
          rw [h1] at h
          exact absurd h hx
        | cons q pre =>
          simp only [List.cons_append, List.cons.injEq] at h0
          obtain ⟨rfl, rfl⟩ := h0
          exact ⟨pre, u, post, rfl, h1, fun p hp => h2 p (by simp [hp])⟩
    · rw [if_neg h]
      constructor
      · intro hx
        cases hx
        exact ⟨h, [], t, l, rfl, rfl, by simp⟩
      · rintro ⟨hx, pre, u, post, h0, h1, h2⟩
        cases pre with
        | nil =>
          simp only [List.nil_append, List.cons.injEq] at h0
          obtain ⟨rfl, rfl⟩ := h0
          rw [h1]
        | cons q pre =>
          simp only [List.cons_append, List.cons.injEq] at h0
          obtain ⟨rfl, rfl⟩ := h0
          exact absurd (h2 t (by simp)) h

/-- What `&` on members that list the types `ts` returns. -/
theorem choiceify_result {env : Env} {c : Ctx} {v : Value} {n : Node} {ts : List (Ctx × Node)}
    (h : (∃ s as, n = .choiceify s as ∧ Lists env c (.rule s as) ts) ∨
      ∃ ms, n = .choiceifyInline ms ∧ ListsAll env c ms ts) :
    firstHard [validate env v n c] = firstHard (results env v ts) := by
  rcases h with ⟨s, as, rfl, h⟩ | ⟨ms, rfl, h⟩
  · rw [← lists_item v h]
    unfold validate
    rw [val_eq]
    rfl
  · rw [← lists_all v h]
    unfold validate
    rw [val_eq]
    simp only [valBody, validateChoiceifyMembers]
    exact firstHard_single_hard (choiceLoop_firstHard _ _ _) fun x hx => firstHard_hard hx

theorem firstHard_one {r x : Res Unit} (hx : ¬ Soft x) : firstHard [r] = some x ↔ r = x := by
  simp only [firstHard]
  split
  · rename_i h
    constructor
    · intro h'; cases h'
    · rintro rfl; exact absurd h hx
  · simp

/-- C33.  `n` is `&g` or `&( ... )` and its members list the types `ts`.  It accepts a value iff one of these
types does and all earlier ones are ordinary mismatches. -/
theorem C33_accepts (env : Env) (c : Ctx) (v : Value) (n : Node) (ts : List (Ctx × Node))
    (h : (∃ s as, n = .choiceify s as ∧ Lists env c (.rule s as) ts) ∨
      ∃ ms, n = .choiceifyInline ms ∧ ListsAll env c ms ts) :
    Accepts env c n v ↔ ∃ pre t post, ts = pre ++ t :: post ∧ Accepts env t.1 t.2 v ∧
      ∀ p ∈ pre, Mismatches env p.1 p.2 v := by
  unfold Accepts
  rw [← firstHard_one not_soft_ok, choiceify_result h, results, firstHard_some]
  exact and_iff_right not_soft_ok

/-- C33.  If none of the listed types reports a fatal error, the value is accepted iff one of them
accepts it. -/
theorem C33_any_member (env : Env) (c : Ctx) (v : Value) (n : Node) (ts : List (Ctx × Node))
    (h : (∃ s as, n = .choiceify s as ∧ Lists env c (.rule s as) ts) ∨
      ∃ ms, n = .choiceifyInline ms ∧ ListsAll env c ms ts)
    (hf : ∀ t ∈ ts, Accepts env t.1 t.2 v ∨ Mismatches env t.1 t.2 v) :
    Accepts env c n v ↔ ∃ t ∈ ts, Accepts env t.1 t.2 v := by
  rw [C33_accepts env c v n ts h]
  constructor
  · rintro ⟨pre, t, post, rfl, h1, -⟩; exact ⟨t, by simp, h1⟩
  · rintro ⟨t, ht, h1⟩
    clear h
    induction ts with
    | nil => cases ht
    | cons u ts ih =>
      by_cases hu : Accepts env u.1 u.2 v
      · exact ⟨[], u, ts, rfl, hu, by simp⟩
      · have hu' := (hf u (by simp)).resolve_left hu
        have : t ∈ ts := by
          rcases List.mem_cons.mp ht with rfl | ht
          · exact absurd h1 hu
          · exact ht
        obtain ⟨pre, x, post, rfl, h2, h3⟩ := ih (fun t ht => hf t (by simp [ht])) this
        exact ⟨u :: pre, x, post, rfl, h2, fun p hp => by
          rcases List.mem_cons.mp hp with rfl | hp
          · exact hu'
          · exact h3 p hp⟩

/-- C33.  A fatal error is returned iff one of the listed types gives it and all earlier ones are
ordinary mismatches. -/
theorem C33_fatal (env : Env) (c : Ctx) (v : Value) (n : Node) (ts : List (Ctx × Node)) (e : Err)
    (he : e.isFatal = true)
    (h : (∃ s as, n = .choiceify s as ∧ Lists env c (.rule s as) ts) ∨
      ∃ ms, n = .choiceifyInline ms ∧ ListsAll env c ms ts) :
    validate env v n c = .err e ↔ ∃ pre t post, ts = pre ++ t :: post ∧ validate env v t.2 t.1 = .err e ∧
      ∀ p ∈ pre, Mismatches env p.1 p.2 v := by
  rw [← firstHard_one (not_soft_fatal he), choiceify_result h, results, firstHard_some]
  exact and_iff_right (not_soft_fatal he)

/-- C33.  `&` on a name that is not a group is a `Structural` error, whatever the value. -/
theorem C33_not_a_group (env : Env) (c c' : Ctx) (v : Value) (s : String) (as : List Node) (n : Node)
    (h : c.lookupRule env s as = .ok (n, c')) (h1 : ∀ s as, n ≠ .rule s as) (h2 : ∀ ms, n ≠ .group ms) :
    validate env v (.choiceify s as) c = .err (.structural "improper choiceify target") := by
  unfold validate
  rw [val_eq]
  simp only [valBody]
  rw [chf_eq]
  simp only [chfBody, h, Res.ofExcept, Res.bind]

/-! Examples: `colors = (red: 1, other, tstr)`, `other = (blue: 2)`; `&colors`. -/

/-- Rules for the examples. -/
def colorRules : RuleTable :=
  [("colors", ⟨[], .group [.keyValue (.literal (.text "red")) (.literal (.int 1)) true, .rule "other" [], .prelude .tstr]⟩),
   ("other", ⟨[], .group [.keyValue (.literal (.text "blue")) (.literal (.int 2)) true]⟩)]

example : Lists (demoEnv colorRules) top (.rule "colors" [])
    [(.frame [] top 1, .literal (.int 1)), (.frame [] (.frame [] top 1) 2, .literal (.int 2)),
      (.frame [] top 1, .prelude .tstr)] :=
  .group (ms := [.keyValue (.literal (.text "red")) (.literal (.int 1)) true, .rule "other" [], .prelude .tstr]) rfl
    (.cons (.keyed _ _ _ _) (.cons (ts := [_]) (us := [_])
      (.group (ms := [.keyValue (.literal (.text "blue")) (.literal (.int 2)) true]) rfl (.cons (.keyed _ _ _ _) (.nil _)))
      (.cons (ts := [_]) (us := []) (.plain _ (by simp) (by simp)) (.nil _))))

example : Accepts (demoEnv colorRules) top (.choiceify "colors" []) (.integer 2) :=
  accepts_of_fuel 60 (by decide)

end Cddl
