import Verif.Spec.Alphabet

/-! # What the texts of the grammar are written with -/

namespace Cddl

open Ast (Ty Ty1 Ty2 MemberKeyVal GrpEntVal GrpEnt Group GrpChoice RuleVal)

/-- Reads one character.  The flag tells that the last thing read is a slash. -/
def Spot.take : Spot × Bool → Char → Option (Spot × Bool)
  | (.code, f), c =>
    if ¬ CodeChar c ∨ (c = '=' ∧ f = true) then none
    else some (Spot.next .code c, if c = ' ' ∨ c = '\t' ∨ c = '\r' ∨ c = '\n' ∨ c = ';' then f else c == '/')
  | (p, f), c => some (p.next c, f)

/-- The text can be read, from outside of literals to outside of literals. -/
def Runs (f : Bool) (s : List Char) (g : Bool) : Prop := s.foldlM Spot.take (.code, f) = some (.code, g)

theorem Runs.nil {f : Bool} : Runs f [] f := rfl

theorem Runs.app {f g h : Bool} {a b : List Char} (ha : Runs f a g) (hb : Runs g b h) : Runs f (a ++ b) h := by
  unfold Runs at *
  rw [List.foldlM_append, ha]
  exact hb

/-- Characters that are neither white space nor begin a literal or a comment, nor `/` and `=`. -/
def SolidChar (c : Char) : Prop := CodeChar c ∧ ¬ Blank c ∧ c ∉ ['"', '\'', ';', '/', '=']

instance (c : Char) : Decidable (SolidChar c) := by unfold SolidChar Blank; infer_instance

theorem Runs.solid {f g : Bool} {c : Char} {s : List Char} (hc : SolidChar c) (h : Runs false s g) : Runs f (c :: s) g := by
  unfold Runs at *
  rw [List.foldlM_cons]
  obtain ⟨h1, h2, h3⟩ := hc
  simp only [List.mem_cons, List.not_mem_nil, or_false, not_or] at h3
  simp only [Blank, not_or] at h2
  have : Spot.take (.code, f) c = some (.code, false) := by
    simp [Spot.take, Spot.next, h1, h2, h3]
  rw [this]
  exact h

theorem Runs.solids {s : List Char} (h : ∀ c ∈ s, SolidChar c) : Runs false s false := by
  induction s with
  | nil => exact .nil
  | cons c s ih => exact .solid (h c (by simp)) (ih fun d hd => h d (by simp [hd]))

theorem Runs.slash {f g : Bool} {s : List Char} (h : Runs true s g) : Runs f ('/' :: s) g := by
  unfold Runs at *
  rw [List.foldlM_cons]
  exact h

theorem Runs.equals {g : Bool} {s : List Char} (h : Runs false s g) : Runs false ('=' :: s) g := by
  unfold Runs at *
  rw [List.foldlM_cons]
  exact h

theorem Runs.comment {f : Bool} {t : List Char} (h : ∀ c ∈ t, c ≠ '\n') :
    t.foldlM Spot.take (.comment, f) = some (.comment, f) := by
  induction t with
  | nil => rfl
  | cons c t ih =>
    rw [List.foldlM_cons]
    have : Spot.take (.comment, f) c = some (.comment, f) := by simp [Spot.take, Spot.next, h c (by simp)]
    rw [this]
    exact ih fun d hd => h d (by simp [hd])

theorem WS.runs {w : List Char} (h : WS w) : ∀ f, Runs f w f := by
  intro f
  induction h with
  | nil => exact .nil
  | blank hc _ ih =>
    unfold Runs at *
    rw [List.foldlM_cons]
    rcases hc with rfl | rfl | rfl | rfl <;> exact ih
  | comment ht _ ih =>
    unfold Runs at *
    rw [List.cons_append, List.foldlM_cons]
    show List.foldlM Spot.take (.comment, f) _ = _
    rw [List.foldlM_append, Runs.comment fun c hc => (ht c hc).2]
    exact ih
  | commentCr ht _ ih =>
    unfold Runs at *
    rw [List.cons_append, List.foldlM_cons]
    show List.foldlM Spot.take (.comment, f) _ = _
    rw [List.foldlM_append, Runs.comment fun c hc => (ht c hc).2]
    exact ih

/-- Types and the like: whatever is before, no slash is last. -/
def RunsT (s : List Char) : Prop := ∀ f, Runs f s false

/-- Groups and the like. -/
def RunsG (s : List Char) : Prop := ∀ f, ∃ g, Runs f s g

theorem RunsT.app {a b : List Char} (h : RunsT a) (h' : Runs false b false) : RunsT (a ++ b) := fun f => (h f).app h'

theorem RunsT.solid {c : Char} {s : List Char} (hc : SolidChar c) (h : Runs false s false) : RunsT (c :: s) :=
  fun _ => .solid hc h

theorem RunsT.n {s : List Char} (h : RunsT s) : Runs false s false := h false

theorem WS.n {w : List Char} (h : WS w) : Runs false w false := h.runs false

theorem RunsT.g {s : List Char} (h : RunsT s) : RunsG s := fun f => ⟨false, h f⟩

theorem RunsT.brackets {c d : Char} {w s w' : List Char} (hc : SolidChar c) (hd : SolidChar d) (hw : WS w) (h : RunsG s)
    (hw' : WS w') : RunsT (c :: (w ++ s ++ w') ++ [d]) := by
  intro f
  obtain ⟨g, hg⟩ := h false
  rw [List.cons_append]
  exact .solid hc ((((hw.runs false).app hg).app (hw'.runs g)).app (.solid hd .nil))

theorem EAlpha.solid {c : Char} (h : EAlpha c) : SolidChar c := by
  refine ⟨.inr (.inl h), ?_, ?_⟩
  · rintro (rfl | rfl | rfl | rfl) <;> revert h <;> unfold EAlpha <;> decide
  · intro hm
    simp only [List.mem_cons, List.not_mem_nil, or_false] at hm
    rcases hm with rfl | rfl | rfl | rfl | rfl <;> revert h <;> unfold EAlpha <;> decide

theorem Digit.solid {c : Char} (h : Digit c) : SolidChar c := by
  refine ⟨.inr (.inr (.inl h)), ?_, ?_⟩
  · rintro (rfl | rfl | rfl | rfl) <;> revert h <;> unfold Digit <;> decide
  · intro hm
    simp only [List.mem_cons, List.not_mem_nil, or_false] at hm
    rcases hm with rfl | rfl | rfl | rfl | rfl <;> revert h <;> unfold Digit <;> decide

theorem HexDigit.solid {c : Char} (h : HexDigit c) : SolidChar c := by
  rcases h with h | ⟨h1, h2⟩ | ⟨h1, h2⟩
  · exact h.solid
  · exact EAlpha.solid (.inl ⟨h1, Char.le_trans h2 (by decide)⟩)
  · exact EAlpha.solid (.inr (.inl ⟨h1, Char.le_trans h2 (by decide)⟩))

theorem IdTail.solid {s : List Char} (h : IdTail s) : ∀ c ∈ s, SolidChar c := by
  induction h with
  | nil => simp
  | cons h1 h2 _ ih =>
    intro c hc
    rcases List.mem_append.1 hc with hc | hc
    · rcases h1 c hc with rfl | rfl <;> decide
    · rcases List.mem_cons.1 hc with rfl | hc
      · rcases h2 with h | h
        · exact h.solid
        · exact h.solid
      · exact ih c hc

theorem Ident.runs {s : List Char} : Ident s → RunsT s
  | .mk hc ht => .solid hc.solid (.solids ht.solid)

theorem UintText.solid {s : List Char} {n : Nat} (h : UintText s n) : ∀ c ∈ s, SolidChar c := by
  cases h with
  | zero => decide
  | dec h1 _ h2 =>
    intro c hc
    rcases List.mem_cons.1 hc with rfl | hc
    · exact h1.solid
    · exact (h2 c hc).solid
  | hex _ h =>
    intro c hc
    rcases List.mem_cons.1 hc with rfl | hc
    · decide
    · rcases List.mem_cons.1 hc with rfl | hc
      · decide
      · exact (h c hc).solid
  | bin _ h =>
    intro c hc
    rcases List.mem_cons.1 hc with rfl | hc
    · decide
    · rcases List.mem_cons.1 hc with rfl | hc
      · decide
      · rcases h c hc with rfl | rfl <;> decide

theorem UintText.runs {s : List Char} {n : Nat} (h : UintText s n) : RunsT s := by
  have hs := h.solid
  cases s with
  | nil => cases h
  | cons c s => exact .solid (hs c (by simp)) (.solids fun d hd => hs d (by simp [hd]))

theorem digits_runs {ds : List Char} (h : ∀ d ∈ ds, Digit d) : Runs false ds false := .solids fun c hc => (h c hc).solid

theorem FracText.runs {s : List Char} : FracText s → Runs false s false
  | .none => .nil
  | .some _ h => .solid (by decide) (digits_runs h)

theorem ExpText.runs {s : List Char} : ExpText s → Runs false s false
  | .none => .nil
  | .plain _ h => .solid (by decide) (digits_runs h)
  | .signed hc _ h => .solid (by decide) (.solid (by rcases hc with rfl | rfl <;> decide) (digits_runs h))

theorem Quoted.takes {b : Bool} {q : Char} {lit esc : Spot} (hqb : q ≠ '\\') (f : Bool)
    (hlit : ∀ c, Spot.take (lit, f) c = some (if c = q then .code else if c = '\\' then esc else lit, f))
    (hesc : ∀ c, Spot.take (esc, f) c = some (lit, f)) {s : List Char} (h : Quoted b q s) :
    (s ++ [q]).foldlM Spot.take (lit, f) = some (.code, f) := by
  induction h with
  | nil =>
    rw [List.nil_append, List.foldlM_cons, hlit, if_pos rfl]
    rfl
  | plain _ hc hb _ ih =>
    rw [List.cons_append, List.foldlM_cons, hlit, if_neg hc, if_neg hb]
    exact ih
  | esc _ ih =>
    rw [List.cons_append, List.cons_append, List.foldlM_cons, hlit, if_neg (Ne.symm hqb), if_pos rfl]
    show (List.foldlM Spot.take (esc, f) _) = _
    rw [List.foldlM_cons, hesc]
    exact ih

theorem Quoted.runs_text {b : Bool} {s : List Char} (h : Quoted b '"' s) : RunsT ('"' :: s ++ ['"']) := by
  intro f
  unfold Runs
  rw [List.cons_append, List.foldlM_cons]
  exact h.takes (lit := .text) (esc := .textEsc) (by decide) false (fun _ => rfl) (fun _ => rfl)

theorem Quoted.runs_bytes {b : Bool} {s : List Char} (h : Quoted b '\'' s) : RunsT ('\'' :: s ++ ['\'']) := by
  intro f
  unfold Runs
  rw [List.cons_append, List.foldlM_cons]
  exact h.takes (lit := .bytes) (esc := .bytesEsc) (by decide) false (fun _ => rfl) (fun _ => rfl)

theorem ValueText.runs {x : ParseExt} {b : Bool} {s : List Char} {v : Ast.Value} : ValueText x b s v → RunsT s
  | .uint h _ => h.runs
  | .nint h _ => .solid (by decide) h.runs.n
  | .float hs hu _ hf he _ _ =>
    .app (.app (by
      rcases hs with rfl | rfl
      · exact hu.runs
      · exact .solid (by decide) hu.runs.n) hf.runs) he.runs
  | .text h _ => h.runs_text
  | .bytes h _ => h.runs_bytes
  | .hex h _ => .solid (by decide) h.runs_bytes.n
  | .base64 h _ => .solid (by decide) (.solid (by decide) (.solid (by decide) h.runs_bytes.n))

theorem OccurText.runs {s : List Char} {o : OccurLimit} : OccurText s o → RunsT s
  | .optional => .solid (by decide) .nil
  | .plus => .solid (by decide) .nil
  | .star => .solid (by decide) .nil
  | .lower h _ => .app h.runs (.solid (by decide) .nil)
  | .upper h _ => .solid (by decide) h.runs.n
  | .both h _ h' _ => .app h.runs (.solid (by decide) h'.runs.n)

theorem OptComma.runs {s : List Char} : OptComma s → Runs false s false
  | .none h => h.n
  | .some h h' => .app h.n (.solid (by decide) h'.n)

mutual
theorem GTy2.runs {x : ParseExt} {b : Bool} {s : List Char} {t : Ty2} : GTy2 x b s t → RunsT s
  | .value h => h.runs
  | .name h => h.runs
  | .parens hw h hw' => .brackets (by decide) (by decide) hw h.runs.g hw'
  | .map hw h hw' => .brackets (by decide) (by decide) hw h.runs hw'
  | .array hw h hw' => .brackets (by decide) (by decide) hw h.runs hw'
  | .unwrap hw h => .app (.solid (by decide) hw.n) h.runs.n
  | .inline hv hw h hw' => .app (.solid (by decide) hv.n) (RunsT.brackets (by decide) (by decide) hw h.runs hw').n
  | .choiceify hw h => .app (.solid (by decide) hw.n) h.runs.n
theorem GName.runs {x : ParseExt} {b : Bool} {s : List Char} {n : String} {as : List Ty1} : GName x b s n as → RunsT s
  | .plain h => h.runs
  | .generic h hw ha => .app h.runs (.app (.solid (by decide) hw.n) (.app ha.runs.n (.solid (by decide) .nil)))
theorem GArgs.runs {x : ParseExt} {b : Bool} {s : List Char} {as : List Ty1} : GArgs x b s as → RunsT s
  | .one h hw => .app h.runs hw.n
  | .cons h hw hw' ha => .app (.app (.app h.runs hw.n) (.solid (by decide) hw'.n)) ha.runs.n
theorem GTy1.runs {x : ParseExt} {b : Bool} {s : List Char} {t : Ty1} : GTy1 x b s t → RunsT s
  | .simple h => h.runs
  | .range h hw hw' h' _ => .app h.runs (.app hw.n (.app (.solids (by decide)) (.app hw'.n h'.runs.n)))
  | .rangeExcl h hw hw' h' _ => .app h.runs (.app hw.n (.app (.solids (by decide)) (.app hw'.n h'.runs.n)))
  | .control h hw ho hw' h' _ =>
    .app h.runs (.app hw.n (.app (.solid (by decide) ho.runs.n) (.app hw'.n h'.runs.n)))
theorem GTy.runs {x : ParseExt} {b : Bool} {s : List Char} {t : Ty} : GTy x b s t → RunsT s
  | .one h => h.runs
  | .cons h hw hw' h' => fun f => .app (.app (h.runs f) (.app hw.n (.slash (hw'.runs true)))) (h'.runs true)
theorem GGroup.runs {x : ParseExt} {b : Bool} {s : List Char} {g : Group} : GGroup x b s g → RunsG s
  | .one h => h.runs
  | .cons h hw hw' h' => fun f => by
    obtain ⟨g, hg⟩ := h.runs f
    obtain ⟨g', hg'⟩ := h'.runs true
    exact ⟨g', .app (.app hg (.app (hw.runs g) (.slash (.slash (hw'.runs true))))) hg'⟩
theorem GChoice.runs {x : ParseExt} {b : Bool} {s : List Char} {g : GrpChoice} : GChoice x b s g → RunsG s
  | .nil => fun f => ⟨f, .nil⟩
  | .cons h hc h' _ => fun f => by
    obtain ⟨g', hg'⟩ := h'.runs false
    exact ⟨g', .app (.app (h.runs f) hc.runs) hg'⟩
theorem GEntry.runs {x : ParseExt} {b : Bool} {s : List Char} {e : GrpEnt} : GEntry x b s e → RunsT s
  | .plain h => h.runs
  | .occur ho hw h _ => .app (.app ho.runs hw.n) h.runs.n
theorem GVal.runs {x : ParseExt} {b : Bool} {s : List Char} {v : GrpEntVal} : GVal x b s v → RunsT s
  | .bareword hk hw hw' h => .app (.app (.app hk.runs hw.n) (.solid (by decide) hw'.n)) h.runs.n
  | .value hk hw hw' h => .app (.app (.app hk.runs hw.n) (.solid (by decide) hw'.n)) h.runs.n
  | .type1 hk hw hw' h => .app (.app (.app hk.runs hw.n) (.equals (.solid (by decide) hw'.n))) h.runs.n
  | .cut hk hw hv hw' h => .app (.app (.app (.app hk.runs hw.n) (.solid (by decide) hv.n))
      (.equals (.solid (by decide) hw'.n))) h.runs.n
  | .member h hw _ => .app h.runs hw.n
  | .groupname h _ => h.runs
  | .parens hw h hw' _ => .brackets (by decide) (by decide) hw h.runs hw'
  | .comma hw h hv hv' hw' => .brackets (by decide) (by decide) hw
      (RunsT.g (.app h.runs (.app hv.n (.solid (by decide) hv'.n)))) hw'
end

theorem GParams.runs {s : List Char} {ns : List String} : GParams s ns → RunsT s
  | .one h hw => .app h.runs hw.n
  | .cons h hw hw' ha => .app (.app (.app h.runs hw.n) (.solid (by decide) hw'.n)) ha.runs.n

theorem GOptParams.runs {s : List Char} {ns : List String} : GOptParams s ns → Runs false s false
  | .none => .nil
  | .some hw ha => .app (.solid (by decide) hw.n) (.app ha.runs.n (.solid (by decide) .nil))

theorem GRule.runs {x : ParseExt} {b : Bool} {s : List Char} {r : Ast.Rule} : GRule x b s r → RunsT s
  | .mk hn hp hw hw' hv =>
    .app (.app (.app (.app hn.runs hp.runs) hw.n) (.equals hw'.n)) (by
      cases hv with
      | type h => exact h.runs.n
      | group h _ => exact h.runs.n)

theorem GRules.runs {x : ParseExt} {b : Bool} {s : List Char} {c : Ast.Cddl} : GRules x b s c → RunsT s
  | .one h hw _ => .app h.runs hw.n
  | .cons h hw h' _ => .app (.app h.runs hw.n) h'.runs.n

theorem GCddl.runs {x : ParseExt} {b : Bool} {s : List Char} {c : Ast.Cddl} : GCddl x b s c → Runs false s false
  | .mk hw h => .app hw.n h.runs.n

/-- Where one is does not depend on the flag. -/
theorem take_spot : ∀ {s : List Char} {p : Spot} {f : Bool} {q : Spot × Bool},
    s.foldlM Spot.take (p, f) = some q → q.1 = s.foldl Spot.next p
  | [], p, f, q, h => by cases h; rfl
  | c :: s, p, f, q, h => by
    rw [List.foldlM_cons] at h
    cases ht : Spot.take (p, f) c with
    | none => rw [ht] at h; cases h
    | some r =>
      rw [ht] at h
      obtain ⟨p', f'⟩ := r
      have hp : p' = p.next c := by
        cases p with
        | code =>
          simp only [Spot.take] at ht
          split at ht
          · cases ht
          · cases ht; rfl
        | _ => cases ht; rfl
      rw [List.foldl_cons, ← hp]
      exact take_spot h

/-- A text that can be read has, outside of literals and comments, only characters of the alphabet. -/
theorem Runs.codeChar {f g : Bool} {a b : List Char} {c : Char} (h : Runs f (a ++ c :: b) g) (ha : Outside a) : CodeChar c := by
  unfold Runs at h
  rw [List.foldlM_append] at h
  cases hq : a.foldlM Spot.take (.code, f) with
  | none => rw [hq] at h; cases h
  | some q =>
    have h1 := take_spot hq
    obtain ⟨p, f'⟩ := q
    have h1 : p = .code := h1.trans ha
    subst h1
    rw [hq] at h
    apply Decidable.byContradiction
    intro hc
    have h : List.foldlM Spot.take (.code, f') (c :: b) = some (.code, g) := h
    rw [List.foldlM_cons] at h
    have : Spot.take (.code, f') c = none := by simp [Spot.take, hc]
    rw [this] at h
    cases h

/-- In a text that can be read no equals sign follows a slash. -/
theorem Runs.noExtend {f g : Bool} {a w b : List Char} (h : Runs f (a ++ '/' :: (w ++ '=' :: b)) g) (ha : Outside a)
    (hw : WS w) : False := by
  unfold Runs at h
  rw [List.foldlM_append] at h
  cases hq : a.foldlM Spot.take (.code, f) with
  | none => rw [hq] at h; cases h
  | some q =>
    have h1 := take_spot hq
    obtain ⟨p, f'⟩ := q
    have h1 : p = .code := h1.trans ha
    subst h1
    rw [hq] at h
    have h : List.foldlM Spot.take (.code, f') ('/' :: (w ++ '=' :: b)) = some (.code, g) := h
    rw [List.foldlM_cons] at h
    have h : List.foldlM Spot.take (.code, true) (w ++ '=' :: b) = some (.code, g) := h
    rw [List.foldlM_append, hw.runs true] at h
    have h : List.foldlM Spot.take (.code, true) ('=' :: b) = some (.code, g) := h
    rw [List.foldlM_cons] at h
    cases h

end Cddl
