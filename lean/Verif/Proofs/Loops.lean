import Verif.Spec.Demo

/-! # Facts about the loops of the validator -/

namespace Cddl

section Choice
variable {f : Node → Res Unit} {msg : String}

/-- An answer that lets a choice try its next option. -/
def Soft (r : Res Unit) : Prop := ∃ e, r = .err e ∧ e.isFatal = false

theorem choiceLoop_append_soft : ∀ {l : List Node} (l' : List Node),
    (∀ n ∈ l, Soft (f n)) → choiceLoop f msg (l ++ l') = choiceLoop f msg l'
  | [], _, _ => rfl
  | n :: ns, l', h => by
    obtain ⟨e, he, hf⟩ := h n (by simp)
    simp only [List.cons_append, choiceLoop, he, hf, Bool.false_eq_true, if_false]
    exact choiceLoop_append_soft l' fun m hm => h m (by simp [hm])

/-- Either all options are soft, or there is a first one that is not and it decides. -/
theorem choiceLoop_split (l : List Node) :
    (∀ n ∈ l, Soft (f n)) ∨
    ∃ pre o post, l = pre ++ o :: post ∧ (∀ n ∈ pre, Soft (f n)) ∧ ¬ Soft (f o) := by
  induction l with
  | nil => exact Or.inl (by simp)
  | cons n ns ih =>
    by_cases hn : Soft (f n)
    · rcases ih with h | ⟨pre, o, post, h1, h2, h3⟩
      · exact Or.inl fun m hm => by
          rcases List.mem_cons.mp hm with rfl | hm
          · exact hn
          · exact h m hm
      · refine Or.inr ⟨n :: pre, o, post, by simp [h1], fun m hm => ?_, h3⟩
        rcases List.mem_cons.mp hm with rfl | hm
        · exact hn
        · exact h2 m hm
    · exact Or.inr ⟨[], n, ns, rfl, by simp, hn⟩

theorem choiceLoop_hard {pre post : List Node} {o : Node} (hp : ∀ n ∈ pre, Soft (f n))
    (ho : ¬ Soft (f o)) : choiceLoop f msg (pre ++ o :: post) = f o := by
  rw [choiceLoop_append_soft _ hp]
  simp only [choiceLoop]
  cases hf : f o with
  | err e =>
    dsimp only
    cases he : e.isFatal with
    | true => simp
    | false => exact absurd ⟨e, hf, he⟩ ho
  | _ => rfl

theorem choiceLoop_all_soft {l : List Node} (h : ∀ n ∈ l, Soft (f n)) :
    choiceLoop f msg l = .err (.mismatch msg) := by
  have := choiceLoop_append_soft (msg := msg) [] h
  simpa [choiceLoop] using this

end Choice

theorem not_soft_ok : ¬ Soft (.ok ()) := by rintro ⟨e, h, _⟩; cases h

theorem not_soft_fatal {e : Err} (h : e.isFatal = true) : ¬ Soft (.err e) := by
  rintro ⟨e', h', hf⟩; cases h'; rw [h] at hf; cases hf

end Cddl
