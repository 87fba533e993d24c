import Verif.Proofs.Balanced
import Verif.Spec.Brackets

/-! # In the grammar, brackets are closed by brackets of their kind -/

namespace Cddl

open Ast (Ty Ty1 Ty2 MemberKeyVal GrpEntVal GrpEnt Group GrpChoice RuleVal)

/-- The text opens and closes brackets in good order. -/
def Nests (s : List Char) : Prop := ∀ o, s.foldlM Spot.nest (.code, o) = some (.code, o)

theorem Nests.nil : Nests [] := fun _ => rfl

theorem Nests.app {a b : List Char} (h : Nests a) (h' : Nests b) : Nests (a ++ b) := fun o => by
  rw [List.foldlM_append, h]
  exact h' o

theorem nest_plain {c : Char} (h : Plain c) (o : List Char) : Spot.nest (.code, o) c = some (.code, o) := by
  obtain ⟨h1, h2, h3, h4, h5⟩ := h
  simp only [not_or] at h1 h2
  simp [Spot.nest, Spot.next, h1, h2, h3, h4, h5]

theorem Nests.cons {c : Char} {a : List Char} (hc : Plain c) (h : Nests a) : Nests (c :: a) := fun o => by
  rw [List.foldlM_cons, nest_plain hc]
  exact h o

theorem Nests.plains {a : List Char} (h : ∀ c ∈ a, Plain c) : Nests a := by
  induction a with
  | nil => exact .nil
  | cons c a ih => exact .cons (h c (.head _)) (ih fun d hd => h d (.tail _ hd))

theorem nest_comment {t : List Char} (h : ∀ c ∈ t, c ≠ '\n') (o : List Char) :
    t.foldlM Spot.nest (.comment, o) = some (.comment, o) := by
  induction t with
  | nil => rfl
  | cons c t ih =>
    rw [List.foldlM_cons]
    have : Spot.nest (.comment, o) c = some (.comment, o) := by simp [Spot.nest, Spot.next, h c (by simp)]
    rw [this]
    exact ih fun d hd => h d (by simp [hd])

theorem WS.nests {w : List Char} (h : WS w) : Nests w := by
  intro o
  induction h with
  | nil => rfl
  | blank hc _ ih =>
    rw [List.foldlM_cons, nest_plain hc.plain]
    exact ih
  | comment ht _ ih =>
    rw [List.cons_append, List.foldlM_cons]
    show List.foldlM Spot.nest (.comment, o) _ = _
    rw [List.foldlM_append, nest_comment fun c hc => (ht c hc).2]
    exact ih
  | commentCr ht _ ih =>
    rw [List.cons_append, List.foldlM_cons]
    show List.foldlM Spot.nest (.comment, o) _ = _
    rw [List.foldlM_append, nest_comment fun c hc => (ht c hc).2]
    exact ih

theorem Nests.brackets {c d : Char} {a : List Char} (hc : (c, d) ∈ [('(', ')'), ('[', ']'), ('{', '}')]) (h : Nests a) :
    Nests (c :: a ++ [d]) := by
  intro o
  rw [List.cons_append, List.foldlM_cons]
  have h1 : Spot.nest (.code, o) c = some (.code, d :: o) := by
    simp only [List.mem_cons, Prod.mk.injEq, List.not_mem_nil, or_false] at hc
    rcases hc with ⟨rfl, rfl⟩ | ⟨rfl, rfl⟩ | ⟨rfl, rfl⟩ <;> rfl
  rw [h1]
  show List.foldlM Spot.nest (.code, d :: o) (a ++ [d]) = _
  rw [List.foldlM_append, h]
  show List.foldlM Spot.nest (.code, d :: o) [d] = _
  simp only [List.mem_cons, Prod.mk.injEq, List.not_mem_nil, or_false] at hc
  rcases hc with ⟨rfl, rfl⟩ | ⟨rfl, rfl⟩ | ⟨rfl, rfl⟩ <;> rfl

theorem Ident.nests {s : List Char} : Ident s → Nests s
  | .mk hc ht => .cons hc.plain (.plains ht.plain)

theorem UintText.nests {s : List Char} {n : Nat} (h : UintText s n) : Nests s := .plains h.plain

theorem digits_nests {ds : List Char} (h : ∀ d ∈ ds, Digit d) : Nests ds := .plains fun c hc => (h c hc).plain

theorem FracText.nests {s : List Char} : FracText s → Nests s
  | .none => .nil
  | .some _ h => .cons (by decide) (digits_nests h)

theorem ExpText.nests {s : List Char} : ExpText s → Nests s
  | .none => .nil
  | .plain _ h => .cons (by decide) (digits_nests h)
  | .signed hc _ h => .cons (by decide) (.cons (by rcases hc with rfl | rfl <;> decide) (digits_nests h))

theorem Quoted.nest {b : Bool} {q : Char} {lit esc : Spot} (hqb : q ≠ '\\') (o : List Char)
    (hlit : ∀ c, Spot.nest (lit, o) c = some (if c = q then .code else if c = '\\' then esc else lit, o))
    (hesc : ∀ c, Spot.nest (esc, o) c = some (lit, o)) {s : List Char} (h : Quoted b q s) :
    (s ++ [q]).foldlM Spot.nest (lit, o) = some (.code, o) := by
  induction h with
  | nil =>
    rw [List.nil_append, List.foldlM_cons, hlit, if_pos rfl]
    rfl
  | plain _ hc hb _ ih =>
    rw [List.cons_append, List.foldlM_cons, hlit, if_neg hc, if_neg hb]
    exact ih
  | esc _ ih =>
    rw [List.cons_append, List.cons_append, List.foldlM_cons, hlit, if_neg (Ne.symm hqb), if_pos rfl]
    show (List.foldlM Spot.nest (esc, o) _) = _
    rw [List.foldlM_cons, hesc]
    exact ih

theorem Quoted.nests_text {b : Bool} {s : List Char} (h : Quoted b '"' s) : Nests ('"' :: s ++ ['"']) := by
  intro o
  rw [List.cons_append, List.foldlM_cons]
  exact h.nest (lit := .text) (esc := .textEsc) (by decide) o (fun _ => rfl) (fun _ => rfl)

theorem Quoted.nests_bytes {b : Bool} {s : List Char} (h : Quoted b '\'' s) : Nests ('\'' :: s ++ ['\'']) := by
  intro o
  rw [List.cons_append, List.foldlM_cons]
  exact h.nest (lit := .bytes) (esc := .bytesEsc) (by decide) o (fun _ => rfl) (fun _ => rfl)

theorem ValueText.nests {x : ParseExt} {b : Bool} {s : List Char} {v : Ast.Value} : ValueText x b s v → Nests s
  | .uint h _ => h.nests
  | .nint h _ => .cons (by decide) h.nests
  | .float hs hu _ hf he _ _ =>
    .app (.app (.app (by
      rcases hs with rfl | rfl
      · exact .nil
      · exact .cons (by decide) .nil) hu.nests) hf.nests) he.nests
  | .text h _ => h.nests_text
  | .bytes h _ => h.nests_bytes
  | .hex h _ => .cons (by decide) h.nests_bytes
  | .base64 h _ => .cons (by decide) (.cons (by decide) (.cons (by decide) h.nests_bytes))

theorem OccurText.nests {s : List Char} {o : OccurLimit} : OccurText s o → Nests s
  | .optional => .cons (by decide) .nil
  | .plus => .cons (by decide) .nil
  | .star => .cons (by decide) .nil
  | .lower h _ => .app h.nests (.cons (by decide) .nil)
  | .upper h _ => .cons (by decide) h.nests
  | .both h _ h' _ => .app h.nests (.cons (by decide) h'.nests)

theorem OptComma.nests {s : List Char} : OptComma s → Nests s
  | .none h => h.nests
  | .some h h' => .app h.nests (.cons (by decide) h'.nests)

mutual
theorem GTy2.nests {x : ParseExt} {b : Bool} {s : List Char} {t : Ty2} : GTy2 x b s t → Nests s
  | .value h => h.nests
  | .name h => h.nests
  | .parens hw h hw' => .brackets (by decide) (.app (.app hw.nests h.nests) hw'.nests)
  | .map hw h hw' => .brackets (by decide) (.app (.app hw.nests h.nests) hw'.nests)
  | .array hw h hw' => .brackets (by decide) (.app (.app hw.nests h.nests) hw'.nests)
  | .unwrap hw h => .app (.cons (by decide) hw.nests) h.nests
  | .inline hv hw h hw' =>
    .app (.cons (by decide) hv.nests) (.brackets (by decide) (.app (.app hw.nests h.nests) hw'.nests))
  | .choiceify hw h => .app (.cons (by decide) hw.nests) h.nests
theorem GName.nests {x : ParseExt} {b : Bool} {s : List Char} {n : String} {as : List Ty1} : GName x b s n as → Nests s
  | .plain h => h.nests
  | .generic h hw ha => .app h.nests (.app (.cons (by decide) hw.nests) (.app ha.nests (.cons (by decide) .nil)))
theorem GArgs.nests {x : ParseExt} {b : Bool} {s : List Char} {as : List Ty1} : GArgs x b s as → Nests s
  | .one h hw => .app h.nests hw.nests
  | .cons h hw hw' ha => .app (.app (.app h.nests hw.nests) (.cons (by decide) hw'.nests)) ha.nests
theorem GTy1.nests {x : ParseExt} {b : Bool} {s : List Char} {t : Ty1} : GTy1 x b s t → Nests s
  | .simple h => h.nests
  | .range h hw hw' h' _ => .app h.nests (.app hw.nests (.app (.plains (by decide)) (.app hw'.nests h'.nests)))
  | .rangeExcl h hw hw' h' _ => .app h.nests (.app hw.nests (.app (.plains (by decide)) (.app hw'.nests h'.nests)))
  | .control h hw ho hw' h' _ =>
    .app h.nests (.app hw.nests (.app (.cons (by decide) ho.nests) (.app hw'.nests h'.nests)))
theorem GTy.nests {x : ParseExt} {b : Bool} {s : List Char} {t : Ty} : GTy x b s t → Nests s
  | .one h => h.nests
  | .cons h hw hw' h' => .app (.app h.nests (.app hw.nests (.cons (by decide) hw'.nests))) h'.nests
theorem GGroup.nests {x : ParseExt} {b : Bool} {s : List Char} {g : Group} : GGroup x b s g → Nests s
  | .one h => h.nests
  | .cons h hw hw' h' =>
    .app (.app h.nests (.app hw.nests (.cons (by decide) (.cons (by decide) hw'.nests)))) h'.nests
theorem GChoice.nests {x : ParseExt} {b : Bool} {s : List Char} {g : GrpChoice} : GChoice x b s g → Nests s
  | .nil => .nil
  | .cons h hc h' _ => .app (.app h.nests hc.nests) h'.nests
theorem GEntry.nests {x : ParseExt} {b : Bool} {s : List Char} {e : GrpEnt} : GEntry x b s e → Nests s
  | .plain h => h.nests
  | .occur ho hw h _ => .app (.app ho.nests hw.nests) h.nests
theorem GVal.nests {x : ParseExt} {b : Bool} {s : List Char} {v : GrpEntVal} : GVal x b s v → Nests s
  | .bareword hk hw hw' h => .app (.app (.app hk.nests hw.nests) (.cons (by decide) hw'.nests)) h.nests
  | .value hk hw hw' h => .app (.app (.app hk.nests hw.nests) (.cons (by decide) hw'.nests)) h.nests
  | .type1 hk hw hw' h =>
    .app (.app (.app hk.nests hw.nests) (.cons (by decide) (.cons (by decide) hw'.nests))) h.nests
  | .cut hk hw hv hw' h => .app (.app (.app (.app hk.nests hw.nests) (.cons (by decide) hv.nests))
      (.cons (by decide) (.cons (by decide) hw'.nests))) h.nests
  | .member h hw _ => .app h.nests hw.nests
  | .groupname h _ => h.nests
  | .parens hw h hw' _ => .brackets (by decide) (.app (.app hw.nests h.nests) hw'.nests)
  | .comma hw h hv hv' hw' => .brackets (by decide)
      (.app (.app hw.nests (.app h.nests (.app hv.nests (.cons (by decide) hv'.nests)))) hw'.nests)
end

theorem GParams.nests {s : List Char} {ns : List String} : GParams s ns → Nests s
  | .one h hw => .app h.nests hw.nests
  | .cons h hw hw' ha => .app (.app (.app h.nests hw.nests) (.cons (by decide) hw'.nests)) ha.nests

theorem GOptParams.nests {s : List Char} {ns : List String} : GOptParams s ns → Nests s
  | .none => .nil
  | .some hw ha => .app (.cons (by decide) hw.nests) (.app ha.nests (.cons (by decide) .nil))

theorem GRule.nests {x : ParseExt} {b : Bool} {s : List Char} {r : Ast.Rule} : GRule x b s r → Nests s
  | .mk hn hp hw hw' hv =>
    .app (.app (.app (.app hn.nests hp.nests) hw.nests) (.cons (by decide) hw'.nests)) (by
      cases hv with
      | type h => exact h.nests
      | group h _ => exact h.nests)

theorem GRules.nests {x : ParseExt} {b : Bool} {s : List Char} {c : Ast.Cddl} : GRules x b s c → Nests s
  | .one h hw _ => .app h.nests hw.nests
  | .cons h hw h' _ => .app (.app h.nests hw.nests) h'.nests

theorem GCddl.nests {x : ParseExt} {b : Bool} {s : List Char} {c : Ast.Cddl} : GCddl x b s c → Nests s
  | .mk hw h => .app hw.nests h.nests

/-- A line ending at the end ends at most a comment. -/
theorem Complete.line {s : List Char} (h : openAt (s ++ ['\n']) = some (.code, [])) : Complete s := by
  unfold openAt at h
  rw [List.foldlM_append] at h
  unfold Complete openAt
  cases hq : s.foldlM Spot.nest (.code, []) with
  | none => rw [hq] at h; cases h
  | some q =>
    rw [hq] at h
    obtain ⟨p, o⟩ := q
    have h : List.foldlM Spot.nest (p, o) ['\n'] = some (.code, []) := h
    cases p <;> cases h
    · exact .inl rfl
    · exact .inr rfl

end Cddl
