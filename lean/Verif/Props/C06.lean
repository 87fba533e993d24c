import Verif.Proofs.Loops

/-! # C06  Ordered type choice -/

namespace Cddl

/-- C06.  A choice accepts a value iff some option accepts it and every earlier option is an ordinary
mismatch. -/
theorem C06_accepts (env : Env) (c : Ctx) (os : List Node) (v : Value) :
    Accepts env c (.choice os) v ↔
      ∃ pre o post, os = pre ++ o :: post ∧ Accepts env c o v ∧ ∀ p ∈ pre, Mismatches env c p v := by
  have e : validate env v (.choice os) c =
      choiceLoop (fun n => validate env v n c) ("choice of " ++ toString os.length) os := by
    unfold validate; rw [val_eq]; rfl
  unfold Accepts
  rw [e]
  constructor
  · intro h
    rcases choiceLoop_split (f := fun n => validate env v n c) os with hs | ⟨pre, o, post, h1, h2, h3⟩
    · rw [choiceLoop_all_soft hs] at h; cases h
    · refine ⟨pre, o, post, h1, ?_, h2⟩
      rw [h1, choiceLoop_hard h2 h3] at h
      exact h
  · rintro ⟨pre, o, post, rfl, h, h2⟩
    rw [choiceLoop_hard h2 (by rw [h]; exact not_soft_ok)]
    exact h

/-- C06.  The first fatal error before a match is returned unchanged, and it is the only way a choice
returns a fatal error. -/
theorem C06_fatal (env : Env) (c : Ctx) (os : List Node) (v : Value) (e : Err)
    (he : e.isFatal = true) :
    validate env v (.choice os) c = .err e ↔
      ∃ pre o post, os = pre ++ o :: post ∧ validate env v o c = .err e ∧
        ∀ p ∈ pre, Mismatches env c p v := by
  have e' : validate env v (.choice os) c =
      choiceLoop (fun n => validate env v n c) ("choice of " ++ toString os.length) os := by
    unfold validate; rw [val_eq]; rfl
  rw [e']
  constructor
  · intro h
    rcases choiceLoop_split (f := fun n => validate env v n c) os with hs | ⟨pre, o, post, h1, h2, h3⟩
    · rw [choiceLoop_all_soft hs] at h; cases h; cases he
    · refine ⟨pre, o, post, h1, ?_, h2⟩
      rw [h1, choiceLoop_hard h2 h3] at h
      exact h
  · rintro ⟨pre, o, post, rfl, h, h2⟩
    rw [choiceLoop_hard h2 (by rw [h]; exact not_soft_fatal he)]
    exact h

/-- C06.  If every option is an ordinary mismatch, so is the choice. -/
theorem C06_mismatch (env : Env) (c : Ctx) (os : List Node) (v : Value)
    (h : ∀ o ∈ os, Mismatches env c o v) : ∃ m, validate env v (.choice os) c = .err (.mismatch m) := by
  have e : validate env v (.choice os) c =
      choiceLoop (fun n => validate env v n c) ("choice of " ++ toString os.length) os := by
    unfold validate; rw [val_eq]; rfl
  exact ⟨_, e.trans (choiceLoop_all_soft h)⟩

/-- `int / missing / tstr`: `int` decides for 3, the missing rule is reported for a text. -/
example : Accepts (demoEnv []) top (.choice [.prelude .int, .rule "missing" [], .prelude .tstr])
    (.integer 3) := accepts_of_fuel 60 (by decide)
example : validate (demoEnv []) (.text "a")
    (.choice [.prelude .int, .rule "missing" [], .prelude .tstr]) top =
    .err (.missingRule "missing") := validate_of_fuel 60 (by decide)
example : ∀ o ∈ [Node.prelude .int, .prelude .tstr], Mismatches (demoEnv []) top o .null := by
  intro o ho
  simp only [List.mem_cons, List.not_mem_nil, or_false] at ho
  rcases ho with rfl | rfl
  · exact ⟨_, validate_of_fuel 60 ⟨rfl, by simp⟩, rfl⟩
  · exact ⟨_, validate_of_fuel 60 ⟨rfl, by simp⟩, rfl⟩

end Cddl
