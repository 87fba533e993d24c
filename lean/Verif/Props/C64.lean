import Verif.Proofs.Takes
import Verif.Props.C15Text

/-!
# C64: repetitions end with the data

`occurLoopS f lo up msg k 0 w` is the loop of a repetition that is given up (`.fuel`) if it has not ended within `k` rounds; the
validator runs it with `k = up + 1`, which is always enough.
-/

namespace Cddl

/-- C64.  If the entry of an array takes an element whenever it matches, a repetition of it succeeds no more often than there
are elements. -/
theorem C64_array {env : Env} {c : Ctx} {n : Node} (h : TakesElement env c n) {k : Nat} {w w' : WArr}
    (hr : Rounds (fun w => (lim env).arr n w c) k w w') : k + w'.array.length ≤ w.array.length :=
  hr.bound (S := arrSizes) (takesElement h)

/-- C64.  So the loop ends with the round after the last element, whatever the upper limit is. -/
theorem C64_array_loop {env : Env} {c : Ctx} {n : Node} (h : TakesElement env c n) (o : OccurLimit) (w : WArr) :
    ∃ msg, (lim env).arr (.occur o n) w c =
      occurLoopS (fun w => (lim env).arr n w c) o.limits.1 o.limits.2 msg (w.array.length + 1) 0 w := by
  refine ⟨"more array element [" ++ occurDisplay env.fmtF64 o n ++ "]", ?_⟩
  rw [arr_eq]
  exact occur_budget (S := arrSizes) (takesElement h) _ _ _ _ (.inr (by omega)) (.inl (Nat.lt_succ_self _)) (Nat.zero_le _)

/-- C64.  The same for entries of maps and pairs. -/
theorem C64_map {env : Env} {c : Ctx} {n : Node} (h : TakesPair env c n) {k : Nat} {w w' : WMap}
    (hr : Rounds (fun w => (lim env).map n w c) k w w') : k + w'.map.length ≤ w.map.length :=
  hr.bound (S := mapSizes) (takesPair h)

/-- C64.  The loop ends with the round after the last pair. -/
theorem C64_map_loop {env : Env} {c : Ctx} {n : Node} (h : TakesPair env c n) (o : OccurLimit) (w : WMap) :
    ∃ msg, (lim env).map (.occur o n) w c =
      occurLoopS (fun w => (lim env).map n w c) o.limits.1 o.limits.2 msg (w.map.length + 1) 0 w := by
  refine ⟨"map{" ++ occurDisplay env.fmtF64 o n ++ "}]", ?_⟩
  rw [map_eq]
  exact occur_budget (S := mapSizes) (takesPair h) _ _ _ _ (.inr (by omega)) (.inl (Nat.lt_succ_self _)) (Nat.zero_le _)

/-- C64.  If an entry of an array matches without taking anything, a repetition of it goes on until the upper limit, which is
`2 ^ 64 - 1` for `*` and `+`: however many fewer rounds it is given, it has not ended. -/
theorem C64_idle_array {env : Env} {c : Ctx} {n : Node} {w : WArr} (h : (lim env).arr n w c = .ok w) (o : OccurLimit) (msg : String)
    {k : Nat} (hk : k < o.limits.2) :
    Rounds (fun w => (lim env).arr n w c) k w w ∧
    occurLoopS (fun w => (lim env).arr n w c) o.limits.1 o.limits.2 msg k 0 w = .fuel := by
  refine ⟨?_, occur_idle h k 0 (by omega)⟩
  clear hk
  induction k with
  | zero => exact .zero _
  | succ k ih => exact .succ h ih

/-- C64.  The same for entries of maps. -/
theorem C64_idle_map {env : Env} {c : Ctx} {n : Node} {w : WMap} (h : (lim env).map n w c = .ok w) (o : OccurLimit) (msg : String)
    {k : Nat} (hk : k < o.limits.2) :
    Rounds (fun w => (lim env).map n w c) k w w ∧
    occurLoopS (fun w => (lim env).map n w c) o.limits.1 o.limits.2 msg k 0 w = .fuel := by
  refine ⟨?_, occur_idle h k 0 (by omega)⟩
  clear hk
  induction k with
  | zero => exact .zero _
  | succ k ih => exact .succ h ih

/-- C64.  Entries that match without taking anything: an empty group always, and an optional entry of an array where no element is
left, or of a map that lacks the key. -/
theorem C64_idle (env : Env) (c : Ctx) (t : Node) (l : Literal) (x : Bool) (a : WArr) (m : WMap) :
    (lim env).arr (.group []) a c = .ok a ∧ (lim env).map (.group []) m c = .ok m ∧
    (t.isElement = true → a.array = [] → (lim env).arr (.occur .optional t) a c = .ok a) ∧
    (m.map.get l.toValue = none → (lim env).map (.occur .optional (.keyValue (.literal l) t x)) m c = .ok m) := by
  refine ⟨?_, ?_, fun ht ha => ?_, fun hm => ?_⟩
  · rw [arr_eq]; rfl
  · rw [map_eq]; rfl
  · have : ∃ e, (lim env).arr t a c = .err (.mismatch e) a := by
      rw [arr_eq]
      cases t with
      | occur | rule | unwrap | choice | group => cases ht
      | _ => simp only [arrBody, validateArrayValue, ha]; exact ⟨_, rfl⟩
    obtain ⟨e, he⟩ := this
    rw [arr_eq]
    simp [arrBody, validateArrayOccur, OccurLimit.limits, occurLoopS, he, Err.isMismatch]
  · have : ∃ e, (lim env).map (.keyValue (.literal l) t x) m c = .err (.mismatch e) m := by
      rw [map_eq]
      simp only [mapBody, validateMapKeyvalue, validateMapKey, mapSearchLiteral, hm]
      exact ⟨_, rfl⟩
    obtain ⟨e, he⟩ := this
    rw [map_eq]
    simp [mapBody, validateMapOccur, OccurLimit.limits, occurLoopS, he, Err.isMismatch]

/-- C64.  That every repetition ends with the data is false: against `[* (? int)]`, the empty array takes `2 ^ 64 - 1` rounds. -/
theorem C64_refuted : ¬ ∀ (env : Env) (c : Ctx) (n : Node) (o : OccurLimit) (msg : String) (w : WArr),
    occurLoopS (fun w => (lim env).arr n w c) o.limits.1 o.limits.2 msg (w.array.length + 1) 0 w ≠ .fuel := by
  intro h
  have hg : (lim (demoEnv [])).arr (.group [.occur .optional (.prelude .int)]) (WArr.new []) top = .ok (WArr.new []) := by
    have hs := (C64_idle (demoEnv []) top (.prelude .int) (.int 0) true (WArr.new []).snapshot (WMap.new [])).2.2.1 rfl rfl
    rw [arr_eq]
    simp only [arrBody, validateArrayGroup, seqLoopS, hs]
    rfl
  exact h _ _ _ .zeroOrMore "" _ (C64_idle_array hg .zeroOrMore "" (k := 1) (by decide)).2

/-! ## Examples -/

/-- `* int`, `* x: g`, `* (int, ? tstr)`, `* (int / tstr)`, `* (1* int)` take something in each round. -/
example (env : Env) (c : Ctx) : TakesElement env c (.prelude .int) ∧
    TakesElement env c (.keyValue (.literal (.text "x")) (.rule "g" []) true) ∧
    TakesElement env c (.group [.prelude .int, .occur .optional (.prelude .tstr)]) ∧
    TakesElement env c (.choice [.prelude .int, .prelude .tstr]) ∧
    TakesElement env c (.group [.occur .oneOrMore (.prelude .int)]) ∧
    TakesPair env c (.keyValue (.prelude .tstr) (.prelude .int) false) := by
  refine ⟨.element _ rfl, .element _ rfl, .group (.head _) (.element _ rfl), .choice fun n hn => ?_,
    .group (.head _) (.occur (by decide) (.element _ rfl)), .pair ..⟩
  rcases List.mem_cons.mp hn with rfl | hn
  · exact .element _ rfl
  · rcases List.mem_singleton.mp hn with rfl; exact .element _ rfl

/-- A named group with a member that must be there, in a rule set. -/
example : TakesElement (demoEnv [("g", ⟨[], .group [.occur .optional (.prelude .tstr), .prelude .int]⟩)]) top (.rule "g" []) :=
  .rule rfl (.group (.tail _ (.head _)) (.element _ rfl))

/-- Two elements, two rounds. -/
example : Rounds (fun w => (lim (demoEnv [])).arr (.prelude .int) w top) 2 (WArr.new [.integer 1, .integer 2]) (WArr.new []) := by
  refine .succ (w' := WArr.new [.integer 2]) ?_ (.succ (w' := WArr.new []) ?_ (.zero _)) <;>
    · rw [arr_eq]; simp only [arrBody, validateArrayValue, WArr.new]; rw [val_eq]; rfl

/-- The text whose validation would not end in practice. -/
example : flattenFromStr c15Libs "x = [* (? int)]" =
    .ok [("x", ⟨[], .array [.occur .zeroOrMore (.group [.occur .optional (.prelude .int)])]⟩)] := by
  exact flattenFromStr_same (by decide +kernel)

end Cddl
