import Verif.Spec.All2
import Verif.Model.Validate

/-! # Data that the tests written in a schema do not tell apart -/

namespace Cddl

/-- The tests a schema makes: the literals it compares with, its patterns, whether it has `.size` and whether it has
`.cbor`. -/
structure Probes where
  lit : Literal → Prop
  pattern : String → Prop
  size : Prop
  cbor : Prop

mutual
/-- The node makes no other tests.  (What stands beside `.size`, and before `.lt` and the like, is not compared with the
data.) -/
def Node.Made (T : Probes) : Node → Prop
  | .literal l => T.lit l
  | .prelude _ => True
  | .rule _ args => Node.MadeL T args
  | .choice l => Node.MadeL T l
  | .map l => Node.MadeL T l
  | .array l => Node.MadeL T l
  | .group l => Node.MadeL T l
  | .keyValue k v _ => Node.Made T k ∧ Node.Made T v
  | .occur _ n => Node.Made T n
  | .unwrap _ args => Node.MadeL T args
  | .range a b _ => Node.Made T a ∧ Node.Made T b
  | .ctl .size _ _ => T.size
  | .ctl _ _ a => Node.Made T a
  | .ctlRegexp p => T.pattern p
  | .ctlCbor n => T.cbor ∧ Node.Made T n
  | .choiceify _ args => Node.MadeL T args
  | .choiceifyInline l => Node.MadeL T l
/-- The same for nodes. -/
def Node.MadeL (T : Probes) : List Node → Prop
  | [] => True
  | n :: ns => Node.Made T n ∧ Node.MadeL T ns
end

/-- The same for all rules. -/
def Env.Made (T : Probes) (env : Env) : Prop := ∀ s rd, env.lookup s = .ok rd → rd.node.Made T

/-- The arguments in a scope. -/
def Ctx.Made (T : Probes) : Ctx → Prop
  | .root _ => True
  | .frame g past _ => (∀ p ∈ g, p.2.Made T) ∧ past.Made T

/-- Data of the same shape whose integers, floats, texts and byte strings pass the same tests.  `rx p s`: the pattern
`p` matches the text `s`. -/
inductive Akin (T : Probes) (rx : String → String → Bool) : Value → Value → Prop
  | same (v : Value) : Akin T rx v v
  | integer {i j : Int} : (i < 0 ↔ j < 0) → (∀ k, T.lit (.int k) → (k = i ↔ k = j) ∧ (k < i ↔ k < j)) →
      (T.size → ∀ n : Nat, i < 256 ^ n ↔ j < 256 ^ n) → Akin T rx (.integer i) (.integer j)
  | float {f g : F64} : (∀ h, T.lit (.float h) → (h = f ↔ h = g) ∧ f.lt h = g.lt h ∧ f.le h = g.le h) →
      Akin T rx (.float f) (.float g)
  | text {s t : String} : (∀ u, T.lit (.text u) → (u = s ↔ u = t)) → (∀ p, T.pattern p → rx p s = rx p t) →
      (T.size → s.utf8ByteSize = t.utf8ByteSize) → Akin T rx (.text s) (.text t)
  | bytes {b d : List UInt8} : (∀ u, T.lit (.bytes u) → (u = b ↔ u = d)) → (T.size → b.length = d.length) →
      (T.cbor → b = d) → Akin T rx (.bytes b) (.bytes d)
  | array {xs ys : List Value} : All2 (Akin T rx) xs ys → Akin T rx (.array xs) (.array ys)
  | map {m m' : List (Value × Value)} : All2 (Akin T rx) (m.map Prod.fst) (m'.map Prod.fst) →
      All2 (Akin T rx) (m.map Prod.snd) (m'.map Prod.snd) → Akin T rx (.map m) (.map m')

end Cddl
