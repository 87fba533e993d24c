import Verif.Spec.Cong

/-! # Map keys that are written out -/

namespace Cddl

mutual
/-- No member key uses a rule name (keys are literals, prelude types, or built from these). -/
def Node.KeysPlain : Node → Prop
  | .literal _ | .prelude _ | .ctlRegexp _ => True
  | .rule _ as | .unwrap _ as | .choiceify _ as => Node.KeysPlainL as
  | .choice l | .map l | .array l | .group l | .choiceifyInline l => Node.KeysPlainL l
  | .keyValue k v _ => k.names = [] ∧ v.KeysPlain
  | .occur _ n | .ctlCbor n => n.KeysPlain
  | .range a b _ => a.KeysPlain ∧ b.KeysPlain
  | .ctl _ a b => a.KeysPlain ∧ b.KeysPlain
/-- The same for all nodes of a list. -/
def Node.KeysPlainL : List Node → Prop
  | [] => True
  | n :: ns => n.KeysPlain ∧ Node.KeysPlainL ns
end

/-- The same scope entered at a smaller or equal nesting depth; arguments have plain keys. -/
inductive Ctx.Shallower : Ctx → Ctx → Prop
  | root {d d' : Nat} : d' ≤ d → Ctx.Shallower (.root d) (.root d')
  | frame {g : List (String × Node)} {p p' : Ctx} {d d' : Nat} : (∀ x ∈ g, x.2.KeysPlain) →
      Ctx.Shallower p p' → d' ≤ d → Ctx.Shallower (.frame g p d) (.frame g p' d')
  /-- two scopes without parameters -/
  | plain {c c' : Ctx} : (∀ s, c.param s = none) → (∀ s, c'.param s = none) → c'.depth ≤ c.depth →
      Ctx.Shallower c c'

end Cddl
