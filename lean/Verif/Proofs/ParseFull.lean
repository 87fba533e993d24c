import Verif.Proofs.ParseSound
import Verif.Spec.Syntax

/-!
# Parsed groups have at least one group choice
-/

namespace Cddl

open Ast (Ty Ty1 Ty2 MemberKeyVal GrpEntVal GrpEnt Group GrpChoice RuleVal)

variable {x : ParseExt} {st : Bool}

mutual
theorem GTy2.full : ∀ {s t}, GTy2 x st s t → Ast.full2 t
  | _, _, .value _ => by simp [Ast.full2]
  | _, _, .name h => by simpa [Ast.full2] using h.full
  | _, _, .parens _ h _ => by simpa [Ast.full2] using h.full
  | _, _, .map _ h _ => by simpa [Ast.full2] using h.full
  | _, _, .array _ h _ => by simpa [Ast.full2] using h.full
  | _, _, .unwrap _ h => by simpa [Ast.full2] using h.full
  | _, _, .inline _ _ h _ => by simpa [Ast.full2] using h.full
  | _, _, .choiceify _ h => by simpa [Ast.full2] using h.full
theorem GName.full : ∀ {s n as}, GName x st s n as → Ast.full1s as
  | _, _, _, .plain _ => by simp [Ast.full1s]
  | _, _, _, .generic _ _ h => h.full
theorem GArgs.full : ∀ {s as}, GArgs x st s as → Ast.full1s as
  | _, _, .one h _ => by simpa [Ast.full1s] using h.full
  | _, _, .cons h _ _ h' => by simpa [Ast.full1s] using ⟨h.full, h'.full⟩
theorem GTy1.full : ∀ {s t}, GTy1 x st s t → Ast.full1 t
  | _, _, .simple h => by simpa [Ast.full1] using h.full
  | _, _, .range h _ _ h' _ => by simpa [Ast.full1] using ⟨h.full, h'.full⟩
  | _, _, .rangeExcl h _ _ h' _ => by simpa [Ast.full1] using ⟨h.full, h'.full⟩
  | _, _, .control h _ _ _ h' _ => by simpa [Ast.full1] using ⟨h.full, h'.full⟩
theorem GTy.full : ∀ {s t}, GTy x st s t → Ast.full1s t
  | _, _, .one h => by simpa [Ast.full1s] using h.full
  | _, _, .cons h _ _ h' => by simpa [Ast.full1s] using ⟨h.full, h'.full⟩
theorem GGroup.full : ∀ {s g}, GGroup x st s g → g ≠ [] ∧ Ast.fullGroup g
  | _, _, .one h => by simpa [Ast.fullGroup] using h.full
  | _, _, .cons h _ _ h' => by simpa [Ast.fullGroup] using ⟨h.full, h'.full.2⟩
theorem GChoice.full : ∀ {s g}, GChoice x st s g → Ast.fullEntries g
  | _, _, .nil => by simp [Ast.fullEntries]
  | _, _, .cons h _ h' _ => by simpa [Ast.fullEntries] using ⟨h.full, h'.full⟩
theorem GEntry.full : ∀ {s e}, GEntry x st s e → Ast.fullEntry e
  | _, _, .plain h => by simpa [Ast.fullEntry] using h.full
  | _, _, .occur _ _ h _ => by simpa [Ast.fullEntry] using h.full
theorem GVal.full : ∀ {s v}, GVal x st s v → Ast.fullEntryVal v
  | _, _, .bareword _ _ _ h => by simpa [Ast.fullEntryVal, Ast.fullKey] using h.full
  | _, _, .value _ _ _ h => by simpa [Ast.fullEntryVal, Ast.fullKey] using h.full
  | _, _, .type1 h _ _ h' => by simpa [Ast.fullEntryVal, Ast.fullKey] using ⟨h.full, h'.full⟩
  | _, _, .cut h _ _ _ h' => by simpa [Ast.fullEntryVal, Ast.fullKey] using ⟨h.full, h'.full⟩
  | _, _, .member h _ _ => by simpa [Ast.fullEntryVal] using h.full
  | _, _, .groupname _ _ => by simp [Ast.fullEntryVal]
  | _, _, .parens _ h _ _ => by simpa [Ast.fullEntryVal] using h.full
  | _, _, .comma _ h _ _ _ => by
    simpa [Ast.fullEntryVal, Ast.fullGroup, Ast.fullEntries, Ast.fullEntry] using h.full
end

theorem GRule.full {s r} (h : GRule x st s r) : r.full := by
  cases h with
  | mk _ _ _ _ hv =>
    cases hv with
    | type h => exact h.full
    | group h _ => exact h.full

theorem GRules.full {s rs} (h : GRules x st s rs) : ∀ r ∈ rs, r.full := by
  induction h with
  | one h _ _ => intro r hr; rw [List.mem_singleton.1 hr]; exact h.full
  | cons h _ _ _ ih =>
    intro r hr
    rcases List.mem_cons.1 hr with rfl | hr
    · exact h.full
    · exact ih r hr

theorem GCddl.full {s rs} (h : GCddl x st s rs) : ∀ r ∈ rs, r.full := by
  cases h with
  | mk _ h => exact h.full

end Cddl
