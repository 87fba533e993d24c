import Verif.Spec.Demo
import Verif.Spec.Cong

/-! # Places where validation begins by using a name -/

namespace Cddl

/-- Matching `v` against the node begins by resolving the name `s` with arguments `as`: the node is the
name itself, `&s`, a range or control operator built on the name, a choice whose first option begins so, an array
or map whose first member is the name, `~s` or an occurrence of it, or an array whose first element is
matched against a type that begins so. -/
inductive FirstUse (s : String) (as : List Node) : Value → Node → Prop
  | rule (v) : FirstUse s as v (.rule s as)
  | choiceify (v) : FirstUse s as v (.choiceify s as)
  | rangeStart (v b i) : FirstUse s as v (.range (.rule s as) b i)
  | rangeStop (v l i) : FirstUse s as v (.range (.literal l) (.rule s as) i)
  | ctlArg (v o t) : FirstUse s as v (.ctl o t (.rule s as))
  | choice {v n} (ns) : FirstUse s as v n → FirstUse s as v (.choice (n :: ns))
  | arrayEntry (xs ms) : FirstUse s as (.array xs) (.array (.rule s as :: ms))
  | arrayUnwrap (xs ms) : FirstUse s as (.array xs) (.array (.unwrap s as :: ms))
  | arrayOccur (xs o ms) : FirstUse s as (.array xs) (.array (.occur o (.rule s as) :: ms))
  | arrayItem {x n} (xs ms) : FirstUse s as x n → n.isItem = true → FirstUse s as (.array (x :: xs)) (.array (n :: ms))
  | arrayKeyed {x n} (xs k cut ms) : FirstUse s as x n →
      FirstUse s as (.array (x :: xs)) (.array (.keyValue k n cut :: ms))
  | mapEntry (m ms) : FirstUse s as (.map m) (.map (.rule s as :: ms))
  | mapUnwrap (m ms) : FirstUse s as (.map m) (.map (.unwrap s as :: ms))
  | mapChoiceify (m ms) : FirstUse s as (.map m) (.map (.choiceify s as :: ms))
  | mapOccur (m o ms) : FirstUse s as (.map m) (.map (.occur o (.rule s as) :: ms))

end Cddl
