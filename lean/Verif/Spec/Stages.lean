import Verif.Spec.Entry
import Verif.Spec.Convert

/-! # What the entry points taking text should answer, stage by stage -/

namespace Cddl

/-- The rule that counts for a name: the last one with that name. -/
def LastRule (t : RuleTable) (name : String) (rd : RuleDef) : Prop :=
  ∃ pre post, t = pre ++ (name, rd) :: post ∧ ∀ p ∈ post, p.1 ≠ name

/-- The stages every call goes through before it looks at the data.  `data t rd r` says what the answer is
once the rules are known to be `t` and the rule asked for to be `rd`. -/
inductive Staged (l : Libs) (name cddl : String) (data : RuleTable → RuleDef → Res Unit → Prop) : Res Unit → Prop
  /-- The schema text does not parse. -/
  | notCddl {e} : parseCddl l.parse cddl = .err e → Staged l name cddl data (.err e)
  /-- The schema uses something that is not supported or makes no sense. -/
  | badSchema {tree e} : parseCddl l.parse cddl = .ok tree → flatten l.regexOk tree = .err e →
      Staged l name cddl data (.err e)
  /-- There is no rule with that name. -/
  | noRule {tree t} : parseCddl l.parse cddl = .ok tree → flatten l.regexOk tree = .ok t →
      (∀ p ∈ t, p.1 ≠ name) → Staged l name cddl data (.err (.missingRule name))
  /-- Now the data is looked at. -/
  | data {tree t rd r} : parseCddl l.parse cddl = .ok tree → flatten l.regexOk tree = .ok t →
      LastRule t name rd → data t rd r → Staged l name cddl data r

/-- What happens with CBOR bytes once the rule is known. -/
inductive CborAnswer (l : Libs) (cbor : List UInt8) (t : RuleTable) (rd : RuleDef) : Res Unit → Prop
  | notCbor {msg} : l.cborDecode cbor = .error msg → CborAnswer l cbor t rd (.err (.valueError msg))
  | tagged {c} : l.cborDecode cbor = .ok c → c.hasTag = true →
      CborAnswer l cbor t rd (.err (.valueError "can't handle hidden cbor Value"))
  | validated {c v} : l.cborDecode cbor = .ok c → CborIs c v →
      CborAnswer l cbor t rd (doValidate (l.env t) v rd)

/-- What happens with JSON text once the rule is known. -/
inductive JsonAnswer (l : Libs) (json : String) (t : RuleTable) (rd : RuleDef) : Res Unit → Prop
  | notJson {msg} : l.jsonDecode json = .error msg → JsonAnswer l json t rd (.err (.valueError msg))
  | validated {j v} : l.jsonDecode json = .ok j → JsonIs j v → JsonAnswer l json t rd (doValidate (l.env t) v rd)

end Cddl
