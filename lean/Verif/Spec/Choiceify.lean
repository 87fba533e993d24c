import Verif.Spec.Demo

/-! # The types listed by a group -/

namespace Cddl

mutual
/-- The types (with their scopes) that a group member stands for under `&`: a member with a key stands
for its value type, a group name (or a name of such a name) for the members of that group, any other
member for itself. -/
inductive Lists (env : Env) : Ctx → Node → List (Ctx × Node) → Prop
  | keyed (c k t cut) : Lists env c (.keyValue k t cut) [(c, t)]
  | group {c c' : Ctx} {s : String} {as ms : List Node} {ts : List (Ctx × Node)} :
      c.lookupRule env s as = .ok (.group ms, c') → ListsAll env c' ms ts → Lists env c (.rule s as) ts
  | alias {c c' : Ctx} {s s' : String} {as as' : List Node} {ts : List (Ctx × Node)} :
      c.lookupRule env s as = .ok (.rule s' as', c') → Lists env c' (.rule s' as') ts →
      Lists env c (.rule s as) ts
  | plain (c) {t : Node} : (∀ s as, t ≠ .rule s as) → (∀ k n cut, t ≠ .keyValue k n cut) →
      Lists env c t [(c, t)]
/-- All types of a list of members, in order. -/
inductive ListsAll (env : Env) : Ctx → List Node → List (Ctx × Node) → Prop
  | nil (c) : ListsAll env c [] []
  | cons {c : Ctx} {m : Node} {ms : List Node} {ts us : List (Ctx × Node)} :
      Lists env c m ts → ListsAll env c ms us → ListsAll env c (m :: ms) (ts ++ us)
end

end Cddl
