import Verif.Proofs.Loops
import Verif.Spec.All2

/-! # Types that describe exactly one data item -/

namespace Cddl

/-- A node that describes one data item (as opposed to a group): a literal, prelude type, map,
array, range, control operator or `&group`; a name that leads to such a node; a choice of such
nodes. -/
inductive Single (env : Env) : Ctx → Node → Prop
  | literal (c l) : Single env c (.literal l)
  | prelude (c p) : Single env c (.prelude p)
  | map (c l) : Single env c (.map l)
  | array (c l) : Single env c (.array l)
  | range (c a b i) : Single env c (.range a b i)
  | ctl (c o a b) : Single env c (.ctl o a b)
  | ctlRegexp (c p) : Single env c (.ctlRegexp p)
  | ctlCbor (c n) : Single env c (.ctlCbor n)
  | choiceify (c s l) : Single env c (.choiceify s l)
  | choiceifyInline (c l) : Single env c (.choiceifyInline l)
  | rule {c c' : Ctx} {name : String} {args : List Node} {n : Node} :
      c.lookupRule env name args = .ok (n, c') → Single env c' n → Single env c (.rule name args)
  | choice {c : Ctx} {l : List Node} : (∀ n, n ∈ l → Single env c n) → Single env c (.choice l)

/-- An array entry `m` for the item type `t`: the type itself or the type with a member key. -/
inductive Entry (env : Env) (c : Ctx) : Node → Node → Prop
  | plain {t : Node} : Single env c t → Entry env c t t
  | keyed (k t : Node) (cut : Bool) : Entry env c (.keyValue k t cut) t

end Cddl
