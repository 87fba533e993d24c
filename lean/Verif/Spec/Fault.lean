import Verif.Spec.Message
import Verif.Spec.Uses
import Verif.Props.C08
import Verif.Props.C09

/-! # Parts of a schema that make no sense where they stand

The error that is reported for them, whatever the data. -/

namespace Cddl

/-- The name leads, through other names, to something that is no group. -/
inductive NoGroup (env : Env) : Ctx → String → List Node → Prop
  | here {c c' : Ctx} {s : String} {as : List Node} {n : Node} : c.lookupRule env s as = .ok (n, c') →
      (∀ ms, n ≠ .group ms) → (∀ s as, n ≠ .rule s as) → NoGroup env c s as
  | name {c c' : Ctx} {s s' : String} {as as' : List Node} : c.lookupRule env s as = .ok (.rule s' as', c') →
      NoGroup env c' s' as' → NoGroup env c s as

/-- A part of a schema that cannot be used as a type, and what is said about it. -/
inductive NoType (env : Env) : Ctx → Node → Err → Prop
  | keyValue {c} (k t cut) : NoType env c (.keyValue k t cut) (.structural "unexpected KeyValue")
  | occur {c} (o n) : NoType env c (.occur o n) (.structural "unexpected Occur")
  | unwrap {c} (s as) : NoType env c (.unwrap s as) (.structural "unexpected Unwrap")
  | group {c} {ms : List Node} : ms.length ≠ 1 → NoType env c (.group ms) (.unsupported "standalone group")
  | single {c n e} : NoType env c n e → NoType env c (.group [n]) e
  | undefined {c s as e} : c.lookupRule env s as = .error e → e.isFatal = true → NoType env c (.rule s as) e
  | rule {c c' s as n e} : c.lookupRule env s as = .ok (n, c') → NoType env c' n e → NoType env c (.rule s as) e
  | choice {c n e} (ns) : NoType env c n e → NoType env c (.choice (n :: ns)) e
  /-- a range that starts, or ends, with something that is no literal -/
  | start {c a n b i} : Names env c a n → (∀ l, n ≠ .literal l) →
      NoType env c (.range a b i) (.structural "confusing type on range operator")
  | stop {c a l b n i} : Endpoint env c a l → Names env c b n → (∀ l, n ≠ .literal l) →
      NoType env c (.range a b i) (.structural "confusing type on range operator")
  /-- a range whose ends are of different kinds -/
  | kinds {c a l b m i} : Endpoint env c a l → Endpoint env c b m → l.kind ≠ m.kind →
      NoType env c (.range a b i) (.structural "mismatched types on range operator")
  /-- a range of sizes that starts, or ends, with something that is no integer -/
  | sizeStart {c t z a b i s} : Names env c z (.range a b i) → (∀ k, a ≠ .literal (.int k)) → Shows env.fmtF64 a s →
      NoType env c (.ctl .size t z) (.structural ("bad .size range start type (" ++ s ++ ")"))
  | sizeStop {c t z k b i s} : Names env c z (.range (.literal (.int k)) b i) → (∀ k, b ≠ .literal (.int k)) →
      Shows env.fmtF64 b s → NoType env c (.ctl .size t z) (.structural ("bad .size range end type (" ++ s ++ ")"))
  /-- … or with an integer that is no size -/
  | sizeLow {c t z i j k} : Names env c z (.range (.literal (.int j)) (.literal (.int k)) i) → (j < 0 ∨ 2 ^ 64 ≤ j) →
      NoType env c (.ctl .size t z) (.structural ("bad .size limit " ++ toString j))
  | sizeHigh {c t z i j k} : Names env c z (.range (.literal (.int j)) (.literal (.int k)) i) → 0 ≤ j → j < 2 ^ 64 →
      (k < 0 ∨ 2 ^ 64 ≤ k) → NoType env c (.ctl .size t z) (.structural ("bad .size limit " ++ toString k))
  | choiceify {c s as} : NoGroup env c s as → NoType env c (.choiceify s as) (.structural "improper choiceify target")
  | choiceifyUndefined {c s as e} : c.lookupRule env s as = .error e → e.isFatal = true → NoType env c (.choiceify s as) e

/-- A part of a schema that cannot be an entry of a map. -/
inductive NoMapEntry (env : Env) : Ctx → Node → Err → Prop
  | literal {c} (l) : NoMapEntry env c (.literal l) (.structural "literal map member")
  | prelude {c} (p) : NoMapEntry env c (.prelude p) (.structural "prelude type map member")
  | map {c} (ms) : NoMapEntry env c (.map ms) (.structural "map as map member")
  | array {c} (ms) : NoMapEntry env c (.array ms) (.structural "array as map member")
  | range {c} (a b i) : NoMapEntry env c (.range a b i) (.structural "range as map member")
  | control {c} (o t a) : NoMapEntry env c (.ctl o t a) (.structural "control op as map member")
  | regexp {c} (p) : NoMapEntry env c (.ctlRegexp p) (.structural "control op as map member")
  | cbor {c} (n) : NoMapEntry env c (.ctlCbor n) (.structural "control op as map member")
  | choiceify {c s as} : NoGroup env c s as →
      NoMapEntry env c (.choiceify s as) (.structural "improper map choiceify target")
  | undefined {c s as e} : c.lookupRule env s as = .error e → e.isFatal = true → NoMapEntry env c (.rule s as) e
  | unwrapUndefined {c s as e} : c.lookupRule env s as = .error e → e.isFatal = true → NoMapEntry env c (.unwrap s as) e
  | choiceifyUndefined {c s as e} : c.lookupRule env s as = .error e → e.isFatal = true →
      NoMapEntry env c (.choiceify s as) e
  | rule {c c' s as n e} : c.lookupRule env s as = .ok (n, c') → NoMapEntry env c' n e → NoMapEntry env c (.rule s as) e
  | unwrap {c c' s as n ms e} : c.lookupRule env s as = .ok (.map (n :: ms), c') → NoMapEntry env c' n e →
      NoMapEntry env c (.unwrap s as) e
  | occur {c n e} (o) : NoMapEntry env c n e → NoMapEntry env c (.occur o n) e
  | group {c n e} (ns) : NoMapEntry env c n e → NoMapEntry env c (.group (n :: ns)) e
  | choice {c n e} (ns) : NoMapEntry env c n e → NoMapEntry env c (.choice (n :: ns)) e
  | inline {c n e} (ns) : NoMapEntry env c n e → NoMapEntry env c (.choiceifyInline (n :: ns)) e

/-- A part of a schema that cannot be an entry of an array that still has elements. -/
inductive NoArrayEntry (env : Env) : Ctx → Node → Err → Prop
  | item {c n e} : n.isItem = true → NoType env c n e → NoArrayEntry env c n e
  | keyValue {c t e} (k cut) : NoType env c t e → NoArrayEntry env c (.keyValue k t cut) e
  | undefined {c s as e} : c.lookupRule env s as = .error e → e.isFatal = true → NoArrayEntry env c (.rule s as) e
  | unwrapUndefined {c s as e} : c.lookupRule env s as = .error e → e.isFatal = true →
      NoArrayEntry env c (.unwrap s as) e
  | rule {c c' s as n e} : c.lookupRule env s as = .ok (n, c') → NoArrayEntry env c' n e →
      NoArrayEntry env c (.rule s as) e
  | unwrap {c c' s as n ms e} : c.lookupRule env s as = .ok (.array (n :: ms), c') → NoArrayEntry env c' n e →
      NoArrayEntry env c (.unwrap s as) e
  | occur {c n e} (o) : NoArrayEntry env c n e → NoArrayEntry env c (.occur o n) e
  | group {c n e} (ns) : NoArrayEntry env c n e → NoArrayEntry env c (.group (n :: ns)) e
  | choice {c n e} (ns) : NoArrayEntry env c n e → NoArrayEntry env c (.choice (n :: ns)) e

end Cddl
