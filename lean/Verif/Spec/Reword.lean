import Verif.Model.Validate
import Verif.Spec.All2

/-! # Putting other texts in place of texts, in schemas and in data -/

namespace Cddl

/-- The literal with another text. -/
def Literal.reword (f : String → String) : Literal → Literal
  | .text s => .text (f s)
  | l => l

mutual

/-- The node with other texts in its literals (keys among them).  Rule names and patterns stay. -/
def Node.reword (f : String → String) : Node → Node
  | .literal l => .literal (l.reword f)
  | .prelude p => .prelude p
  | .rule s as => .rule s (Node.rewordL f as)
  | .choice l => .choice (Node.rewordL f l)
  | .map l => .map (Node.rewordL f l)
  | .array l => .array (Node.rewordL f l)
  | .group l => .group (Node.rewordL f l)
  | .keyValue k v c => .keyValue (Node.reword f k) (Node.reword f v) c
  | .occur o n => .occur o (Node.reword f n)
  | .unwrap s as => .unwrap s (Node.rewordL f as)
  | .range a b i => .range (Node.reword f a) (Node.reword f b) i
  | .ctl op t a => .ctl op (Node.reword f t) (Node.reword f a)
  | .ctlRegexp p => .ctlRegexp p
  | .ctlCbor n => .ctlCbor (Node.reword f n)
  | .choiceify s as => .choiceify s (Node.rewordL f as)
  | .choiceifyInline l => .choiceifyInline (Node.rewordL f l)

/-- All nodes of a list. -/
def Node.rewordL (f : String → String) : List Node → List Node
  | [] => []
  | n :: ns => Node.reword f n :: Node.rewordL f ns

end

/-- The rule with other texts. -/
def RuleDef.reword (f : String → String) (rd : RuleDef) : RuleDef := ⟨rd.params, rd.node.reword f⟩

/-- The table with other texts. -/
def RuleTable.reword (f : String → String) (t : RuleTable) : RuleTable := t.map fun p => (p.1, p.2.reword f)

/-- The same libraries, but for how floats are printed in messages, and rules with other texts. -/
def Env.reprint (f : String → String) (fmt : F64 → String) (env : Env) : Env :=
  { env with
    lookup := fun s => match env.lookup s with
      | .ok rd => .ok (rd.reword f)
      | .error e => .error e
    fmtF64 := fmt }

/-- The same libraries, and rules with other texts. -/
def Env.reword (f : String → String) (env : Env) : Env := env.reprint f env.fmtF64

/-- The scope with other texts. -/
def Ctx.reword (f : String → String) : Ctx → Ctx
  | .root d => .root d
  | .frame g past d => .frame (g.map fun p => (p.1, p.2.reword f)) (past.reword f) d

/-- The data `w` is `v` with other texts.  The pairs of a map may come in another order, as maps keep them sorted by
key; with `ord` they come in the same order. -/
inductive Reworded (f : String → String) (ord : Prop) : Value → Value → Prop
  | null : Reworded f ord .null .null
  | bool (b : Bool) : Reworded f ord (.bool b) (.bool b)
  | integer (i : Int) : Reworded f ord (.integer i) (.integer i)
  | float (x : F64) : Reworded f ord (.float x) (.float x)
  | bytes (b : List UInt8) : Reworded f ord (.bytes b) (.bytes b)
  | text (s : String) : Reworded f ord (.text s) (.text (f s))
  | array {xs ys : List Value} : All2 (Reworded f ord) xs ys → Reworded f ord (.array xs) (.array ys)
  | map {m l m' : VMap} : All2 (Reworded f ord) (m.map Prod.fst) (l.map Prod.fst) →
      All2 (Reworded f ord) (m.map Prod.snd) (l.map Prod.snd) → m'.Perm l → (ord → m' = l) →
      Reworded f ord (.map m) (.map m')

mutual

/-- What looks into texts does not tell the new text from the old: no `.size` unless lengths stay, no `.regexp` unless
its matches stay, no `.cbor` unless all texts stay.  Keys that are not literals occur only if `ord`. -/
def Node.Rewordable (f : String → String) (rx : String → String → Bool) (ord : Prop) : Node → Prop
  | .literal _ => True
  | .prelude _ => True
  | .rule _ as => Node.RewordableL f rx ord as
  | .choice l => Node.RewordableL f rx ord l
  | .map l => Node.RewordableL f rx ord l
  | .array l => Node.RewordableL f rx ord l
  | .group l => Node.RewordableL f rx ord l
  | .keyValue k v _ => (ord ∨ ∃ l, k = .literal l) ∧ Node.Rewordable f rx ord k ∧ Node.Rewordable f rx ord v
  | .occur _ n => Node.Rewordable f rx ord n
  | .unwrap _ as => Node.RewordableL f rx ord as
  | .range _ _ _ => True
  | .ctl .size _ _ => ∀ s, (f s).utf8ByteSize = s.utf8ByteSize
  | .ctl _ _ _ => True
  | .ctlRegexp p => ∀ s, rx p (f s) = rx p s
  | .ctlCbor n => (∀ s, f s = s) ∧ Node.Rewordable f rx ord n
  | .choiceify _ as => Node.RewordableL f rx ord as
  | .choiceifyInline l => Node.RewordableL f rx ord l

/-- All nodes of a list. -/
def Node.RewordableL (f : String → String) (rx : String → String → Bool) (ord : Prop) : List Node → Prop
  | [] => True
  | n :: ns => Node.Rewordable f rx ord n ∧ Node.RewordableL f rx ord ns

end

/-- All rules that can be looked up. -/
def Env.Rewordable (f : String → String) (ord : Prop) (env : Env) : Prop :=
  ∀ s rd, env.lookup s = .ok rd → rd.node.Rewordable f env.regexMatch ord

/-- All arguments in scope. -/
def Ctx.Rewordable (f : String → String) (rx : String → String → Bool) (ord : Prop) : Ctx → Prop
  | .root _ => True
  | .frame g past _ => (∀ p ∈ g, p.2.Rewordable f rx ord) ∧ past.Rewordable f rx ord

/-- The error without its text. -/
def Err.sort : Err → Err
  | .mismatch _ => .mismatch ""
  | .mapCut _ => .mapCut ""
  | .structural _ => .structural ""
  | e => e

/-- Both succeed, or both fail with errors of the same sort. -/
inductive SameSort : Res Unit → Res Unit → Prop
  | ok : SameSort (.ok ()) (.ok ())
  | err {e e' : Err} : e.sort = e'.sort → SameSort (.err e) (.err e')
  | panic : SameSort .panic .panic
  | fuel : SameSort .fuel .fuel

end Cddl
