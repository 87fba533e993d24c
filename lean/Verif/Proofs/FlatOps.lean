import Verif.Proofs.FlatTree
import Verif.Spec.Alphabet

/-! # Rules that stand for something use supported operators only -/

namespace Cddl

open Ast (Ty Ty1 Ty2 MemberKeyVal GrpEntVal GrpEnt Group GrpChoice RuleVal)

variable {re : String → Bool}

/-- All operators of the list are supported. -/
def OpsOK (l : List String) : Prop := ∀ op ∈ l, op ∈ supportedOps

theorem OpsOK.nil : OpsOK [] := by simp [OpsOK]

theorem OpsOK.app {a b : List String} (h : OpsOK a) (h' : OpsOK b) : OpsOK (a ++ b) := fun op ho =>
  (List.mem_append.1 ho).elim (h op) (h' op)

theorem OpsOK.cons {s : String} {a : List String} (hs : s ∈ supportedOps) (h : OpsOK a) : OpsOK (s :: a) := fun op ho =>
  (List.mem_cons.1 ho).elim (fun e => e ▸ hs) (h op)

mutual
theorem Flat2.opsOK : ∀ {t : Ty2} {n : Node}, Flat2 re t n → OpsOK (Ast.ops2 t)
  | _, _, .value _ => by simpa [Ast.ops2] using OpsOK.nil
  | _, _, .preludeName _ => by simpa [Ast.ops2, Ast.ops1s] using OpsOK.nil
  | _, _, .name _ h => by simpa [Ast.ops2] using h.opsOK
  | _, _, .parens h _ => by simpa [Ast.ops2] using h.opsOK
  | _, _, .map h => by simpa [Ast.ops2] using h.opsOK
  | _, _, .array h => by simpa [Ast.ops2] using h.opsOK
  | _, _, .unwrap _ h => by simpa [Ast.ops2] using h.opsOK
  | _, _, .choiceify _ h => by simpa [Ast.ops2] using h.opsOK
  | _, _, .inline h => by simpa [Ast.ops2] using h.opsOK
theorem Flat1.opsOK : ∀ {t : Ty1} {n : Node}, Flat1 re t n → OpsOK (Ast.ops1 t)
  | _, _, .simple h => by simpa [Ast.ops1] using h.opsOK
  | _, _, .range ha hb => by simpa [Ast.ops1] using ha.opsOK.app hb.opsOK
  | _, _, .ctl op h h' _ => by
    simpa [Ast.ops1] using OpsOK.cons (by cases op <;> simp [supportedOps, CtlOp.text]) (h.opsOK.app h'.opsOK)
  | _, _, .regexp h h' _ => by simpa [Ast.ops1] using OpsOK.cons (by simp [supportedOps]) (h.opsOK.app h'.opsOK)
  | _, _, .cbor h h' => by simpa [Ast.ops1] using OpsOK.cons (by simp [supportedOps]) (h.opsOK.app h'.opsOK)
theorem FlatPoint.opsOK : ∀ {t : Ty2} {n : Node}, FlatPoint re t n → OpsOK (Ast.ops2 t)
  | _, _, .value _ => by simpa [Ast.ops2] using OpsOK.nil
  | _, _, .literalName _ => by simpa [Ast.ops2, Ast.ops1s] using OpsOK.nil
  | _, _, .name _ h => by simpa [Ast.ops2] using h.opsOK
theorem Flat1s.opsOK : ∀ {t : List Ty1} {n : List Node}, Flat1s re t n → OpsOK (Ast.ops1s t)
  | _, _, .nil => by simpa [Ast.ops1s] using OpsOK.nil
  | _, _, .cons h h' => by simpa [Ast.ops1s] using h.opsOK.app h'.opsOK
theorem FlatGroup.opsOK : ∀ {t : List (List GrpEnt)} {n : List Node}, FlatGroup re t n → OpsOK (Ast.opsGroup t)
  | _, _, .one h => by simpa [Ast.opsGroup] using h.opsOK
  | _, _, .many _ h => h.opsOK
theorem FlatOptions.opsOK : ∀ {t : List (List GrpEnt)} {n : List Node}, FlatOptions re t n → OpsOK (Ast.opsGroup t)
  | _, _, .nil => by simpa [Ast.opsGroup] using OpsOK.nil
  | _, _, .cons h h' => by simpa [Ast.opsGroup] using h.opsOK.app h'.opsOK
theorem FlatEntries.opsOK : ∀ {t : List GrpEnt} {n : List Node}, FlatEntries re t n → OpsOK (Ast.opsEntries t)
  | _, _, .nil => by simpa [Ast.opsEntries] using OpsOK.nil
  | _, _, .cons h h' => by simpa [Ast.opsEntries] using h.opsOK.app h'.opsOK
theorem FlatEntry.opsOK : ∀ {t : GrpEnt} {n : Node}, FlatEntry re t n → OpsOK (Ast.opsEntry t)
  | _, _, .mk h _ => by simpa [Ast.opsEntry] using h.opsOK
theorem FlatEntryVal.opsOK : ∀ {t : GrpEntVal} {n : Node}, FlatEntryVal re t n → OpsOK (Ast.opsEntryVal t)
  | _, _, .member h _ => by simpa [Ast.opsEntryVal] using h.opsOK
  | _, _, .keyed h h' _ => by simpa [Ast.opsEntryVal] using h.opsOK.app h'.opsOK
  | _, _, .preludeName _ => by simpa [Ast.opsEntryVal] using OpsOK.nil
  | _, _, .name _ => by simpa [Ast.opsEntryVal] using OpsOK.nil
  | _, _, .parens h => by simpa [Ast.opsEntryVal] using h.opsOK
theorem FlatKey.opsOK : ∀ {t : MemberKeyVal} {n : Node}, FlatKey re t n → OpsOK (Ast.opsKey t)
  | _, _, .bareword _ => by simpa [Ast.opsKey] using OpsOK.nil
  | _, _, .type1 h => by simpa [Ast.opsKey] using h.opsOK
  | _, _, .value _ => by simpa [Ast.opsKey] using OpsOK.nil
end

theorem FlatRule.opsOK {r : Ast.Rule} {p : String × RuleDef} (h : FlatRule re r p) : OpsOK r.ops := by
  cases h with
  | type h _ => simpa [Ast.Rule.ops] using h.opsOK
  | group h => simpa [Ast.Rule.ops] using h.opsOK

end Cddl
