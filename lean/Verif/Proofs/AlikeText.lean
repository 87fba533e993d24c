import Verif.Proofs.Alike
import Verif.Spec.Entry
import Verif.Props.C47
import Verif.Proofs.Flatten

/-! # The literals of a schema that was read from a text -/

namespace Cddl

open Ast (Ty Ty1 Ty2 MemberKeyVal GrpEntVal GrpEnt Group GrpChoice RuleVal)

/-! ## The values in a syntax tree -/

section Tree
variable (P : Ast.Value → Prop)

mutual
/-- All values in the tree have the property. -/
def Ast.each2 : Ty2 → Prop
  | .value v => P v
  | .typename _ args => Ast.each1s args
  | .parens t => Ast.each1s t
  | .map g => Ast.eachGroup g
  | .array g => Ast.eachGroup g
  | .unwrap _ args => Ast.each1s args
  | .choiceifyInline g => Ast.eachGroup g
  | .choiceify _ args => Ast.each1s args
/-- The same for a `Type1`. -/
def Ast.each1 : Ty1 → Prop
  | .simple t => Ast.each2 t
  | .range a b _ => Ast.each2 a ∧ Ast.each2 b
  | .control a b _ => Ast.each2 a ∧ Ast.each2 b
/-- The same for several. -/
def Ast.each1s : List Ty1 → Prop
  | [] => True
  | t :: ts => Ast.each1 t ∧ Ast.each1s ts
/-- The same for a member key. -/
def Ast.eachKey : MemberKeyVal → Prop
  | .type1 t => Ast.each1 t
  | .bareword _ => True
  | .value v => P v
/-- The same for the value of a group entry. -/
def Ast.eachEntryVal : GrpEntVal → Prop
  | .member t => Ast.each1s t
  | .keyed k _ t => Ast.eachKey k ∧ Ast.each1s t
  | .groupname _ => True
  | .parens g => Ast.eachGroup g
/-- The same for a group entry. -/
def Ast.eachEntry : GrpEnt → Prop
  | .mk _ v => Ast.eachEntryVal v
/-- The same for a group choice. -/
def Ast.eachEntries : List GrpEnt → Prop
  | [] => True
  | e :: es => Ast.eachEntry e ∧ Ast.eachEntries es
/-- The same for a group. -/
def Ast.eachGroup : List (List GrpEnt) → Prop
  | [] => True
  | c :: cs => Ast.eachEntries c ∧ Ast.eachGroup cs
end

/-- The same for a rule. -/
def Ast.eachRule (r : Ast.Rule) : Prop :=
  match r.val with
  | .assignType t => Ast.each1s P t
  | .assignGroup e => Ast.eachEntry P e

end Tree

section Read
variable {x : ParseExt} {st : Bool} {P : Ast.Value → Prop} (hP : ∀ s v, ValueText x st s v → P v)
include hP

mutual
theorem GTy2.each : ∀ {s t}, GTy2 x st s t → Ast.each2 P t
  | _, _, .value h => by simpa [Ast.each2] using hP _ _ h
  | _, _, .name h => by simpa [Ast.each2] using h.each
  | _, _, .parens _ h _ => by simpa [Ast.each2] using h.each
  | _, _, .map _ h _ => by simpa [Ast.each2] using h.each
  | _, _, .array _ h _ => by simpa [Ast.each2] using h.each
  | _, _, .unwrap _ h => by simpa [Ast.each2] using h.each
  | _, _, .inline _ _ h _ => by simpa [Ast.each2] using h.each
  | _, _, .choiceify _ h => by simpa [Ast.each2] using h.each
theorem GName.each : ∀ {s n as}, GName x st s n as → Ast.each1s P as
  | _, _, _, .plain _ => by simp [Ast.each1s]
  | _, _, _, .generic _ _ h => h.each
theorem GArgs.each : ∀ {s as}, GArgs x st s as → Ast.each1s P as
  | _, _, .one h _ => by simpa [Ast.each1s] using h.each
  | _, _, .cons h _ _ h' => by simpa [Ast.each1s] using ⟨h.each, h'.each⟩
theorem GTy1.each : ∀ {s t}, GTy1 x st s t → Ast.each1 P t
  | _, _, .simple h => by simpa [Ast.each1] using h.each
  | _, _, .range h _ _ h' _ => by simpa [Ast.each1] using ⟨h.each, h'.each⟩
  | _, _, .rangeExcl h _ _ h' _ => by simpa [Ast.each1] using ⟨h.each, h'.each⟩
  | _, _, .control h _ _ _ h' _ => by simpa [Ast.each1] using ⟨h.each, h'.each⟩
theorem GTy.each : ∀ {s t}, GTy x st s t → Ast.each1s P t
  | _, _, .one h => by simpa [Ast.each1s] using h.each
  | _, _, .cons h _ _ h' => by simpa [Ast.each1s] using ⟨h.each, h'.each⟩
theorem GGroup.each : ∀ {s g}, GGroup x st s g → Ast.eachGroup P g
  | _, _, .one h => by simpa [Ast.eachGroup] using h.each
  | _, _, .cons h _ _ h' => by simpa [Ast.eachGroup] using ⟨h.each, h'.each⟩
theorem GChoice.each : ∀ {s g}, GChoice x st s g → Ast.eachEntries P g
  | _, _, .nil => by simp [Ast.eachEntries]
  | _, _, .cons h _ h' _ => by simpa [Ast.eachEntries] using ⟨h.each, h'.each⟩
theorem GEntry.each : ∀ {s e}, GEntry x st s e → Ast.eachEntry P e
  | _, _, .plain h => by simpa [Ast.eachEntry] using h.each
  | _, _, .occur _ _ h _ => by simpa [Ast.eachEntry] using h.each
theorem GVal.each : ∀ {s v}, GVal x st s v → Ast.eachEntryVal P v
  | _, _, .bareword _ _ _ h => by simpa [Ast.eachEntryVal, Ast.eachKey] using h.each
  | _, _, .value h _ _ h' => by simpa [Ast.eachEntryVal, Ast.eachKey] using ⟨hP _ _ h, h'.each⟩
  | _, _, .type1 h _ _ h' => by simpa [Ast.eachEntryVal, Ast.eachKey] using ⟨h.each, h'.each⟩
  | _, _, .cut h _ _ _ h' => by simpa [Ast.eachEntryVal, Ast.eachKey] using ⟨h.each, h'.each⟩
  | _, _, .member h _ _ => by simpa [Ast.eachEntryVal] using h.each
  | _, _, .groupname _ _ => by simp [Ast.eachEntryVal]
  | _, _, .parens _ h _ _ => by simpa [Ast.eachEntryVal] using h.each
  | _, _, .comma _ h _ _ _ => by
    simpa [Ast.eachEntryVal, Ast.eachGroup, Ast.eachEntries, Ast.eachEntry] using h.each
end

theorem GRule.each {s r} (h : GRule x st s r) : Ast.eachRule P r := by
  cases h with
  | mk _ _ _ _ hv =>
    cases hv with
    | type h => exact h.each hP
    | group h _ => exact h.each hP

theorem GRules.each {s rs} (h : GRules x st s rs) : ∀ r ∈ rs, Ast.eachRule P r := by
  induction h with
  | one h _ _ => intro r hr; rw [List.mem_singleton.1 hr]; exact h.each hP
  | cons h _ _ _ ih =>
    intro r hr
    rcases List.mem_cons.1 hr with rfl | hr
    · exact h.each hP
    · exact ih r hr

theorem GCddl.each {s rs} (h : GCddl x st s rs) : ∀ r ∈ rs, Ast.eachRule P r := by
  cases h with
  | mk _ h => exact h.each hP

end Read

/-! ## Flattening makes no new literals but texts and booleans -/

theorem okBind {α β : Type} {r : Res α} {f : α → Res β} {b : β} (h : r.bind f = .ok b) : ∃ a, r = .ok a ∧ f a = .ok b := by
  cases r with
  | ok a => exact ⟨a, rfl, h⟩
  | _ => cases h

theorem Node.litsL_append (a b : List Node) : Node.litsL (a ++ b) = Node.litsL a ++ Node.litsL b := by
  induction a with
  | nil => rfl
  | cons n a ih => simp [Node.litsL, ih]

section Flat
variable {S : Literal → Prop} {P : Ast.Value → Prop} {rx : String → Bool}
  (ht : ∀ s, S (.text s)) (hb : ∀ b, S (.bool b)) (hv : ∀ v n, P v → flattenValue v = .ok n → n.Over S)

/-- The same for several nodes. -/
def overs (S : Literal → Prop) (l : List Node) : Prop := ∀ x ∈ Node.litsL l, S x

theorem overs_cons {n : Node} {l : List Node} : overs S (n :: l) ↔ n.Over S ∧ overs S l := by
  simp only [overs, Node.Over, Node.litsL, List.mem_append, or_imp, forall_and]

theorem typeOfOptions_over {l : List Node} {n : Node} (hl : overs S l) (h : typeOfOptions l = .ok n) : n.Over S := by
  unfold typeOfOptions at h
  split at h
  · cases h
  · split at h
    · split at h
      · cases h; exact (overs_cons.mp hl).1
      · cases h
    · cases h; exact hl

theorem rangePointCheck_eq {a b : Node} (h : rangePointCheck a = .ok b) : b = a := by
  unfold rangePointCheck at h
  split at h <;> cases h <;> rfl

theorem controlOf_over {op : String} {t a n : Node} (h1 : t.Over S) (h2 : a.Over S) (h : controlOf rx op t a = .ok n) :
    n.Over S := by
  have key : ∀ o : CtlOp, (Node.ctl o t a).Over S := fun o x hx => by
    simp only [Node.lits, List.mem_append] at hx
    exact hx.elim (h1 x) (h2 x)
  unfold controlOf at h
  split at h
  · split at h <;> cases h <;> exact key _
  · split at h
    · split at h <;> cases h <;> exact key _
    · split at h
      · split at h <;> cases h <;> exact key _
      · split at h
        · split at h <;> cases h <;> exact key _
        · split at h
          · split at h <;> cases h <;> exact key _
          · split at h
            · split at h
              · split at h
                · split at h
                  · cases h; intro x hx; cases hx
                  · cases h
                · cases h
              · cases h
            · split at h
              · cases h; exact h2
              · cases h

theorem nameGeneric_over {n m : Node} {as : Res (List Node)} {b : Bool} (h1 : n.Over S) (h2 : ∀ l, as = .ok l → overs S l)
    (h : nameGeneric n as b = .ok m) : m.Over S := by
  unfold nameGeneric at h
  split at h
  · obtain ⟨l, e, h⟩ := okBind h
    cases h
    intro x hx
    simp only [Node.lits, Node.litsL_append, List.mem_append] at hx
    exact hx.elim (h1 x) (h2 l e x)
  · split at h
    · cases h
    · cases h; exact h1

theorem ruleGeneric_over {r : Res Node} {q : String × List Node} (h1 : ∀ n, r = .ok n → n.Over S) (h : ruleGeneric r = .ok q) :
    overs S q.2 := by
  unfold ruleGeneric at h
  split at h
  · cases h; exact h1 _ rfl
  all_goals cases h

theorem occurWrap_over {o : Option OccurLimit} {n : Node} (h : n.Over S) : (occurWrap o n).Over S := by
  cases o <;> exact h

include hb in
theorem flattenTypename_over {s : String} {n : Node} (h : flattenTypename s = .ok n) : n.Over S := by
  rcases typename_ok h with hp | ⟨-, rfl⟩
  · rcases preludeTable_notRule _ hp with ⟨q, e⟩ | ⟨b, e⟩
    · cases e; intro x hx; cases hx
    · cases e
      intro x hx
      cases hx with
      | head => exact hb b
      | tail _ hx => cases hx
  · intro x hx; cases hx

include ht hb hv

mutual
theorem flattenTy2_over : ∀ {t : Ty2} {n : Node}, Ast.each2 P t → flattenTy2 rx t = .ok n → n.Over S
  | .value v, n, hp, h => hv v n (by simpa [Ast.each2] using hp) (by simpa [flattenTy2] using h)
  | .typename s as, n, hp, h => by
    rw [flattenTy2] at h
    obtain ⟨m, e, h⟩ := okBind h
    exact nameGeneric_over (flattenTypename_over hb e) (fun l e => flattenTy1s_over (by simpa [Ast.each2] using hp) e) h
  | .parens t, n, hp, h => by
    rw [flattenTy2] at h
    obtain ⟨m, e, h⟩ := okBind h
    exact typeOfOptions_over (flattenTy1s_over (by simpa [Ast.each2] using hp) e) h
  | .map g, n, hp, h => by
    rw [flattenTy2] at h
    obtain ⟨m, e, h⟩ := okBind h
    cases h
    exact flattenGroup_over (by simpa [Ast.each2] using hp) e
  | .array g, n, hp, h => by
    rw [flattenTy2] at h
    obtain ⟨m, e, h⟩ := okBind h
    cases h
    exact flattenGroup_over (by simpa [Ast.each2] using hp) e
  | .unwrap s as, n, hp, h => by
    rw [flattenTy2] at h
    obtain ⟨m, e, h⟩ := okBind h
    cases h
    refine ruleGeneric_over (fun n h => ?_) e
    obtain ⟨m, e, h⟩ := okBind h
    exact nameGeneric_over (flattenTypename_over hb e) (fun l e => flattenTy1s_over (by simpa [Ast.each2] using hp) e) h
  | .choiceifyInline g, n, hp, h => by
    rw [flattenTy2] at h
    obtain ⟨m, e, h⟩ := okBind h
    cases h
    exact flattenGroup_over (by simpa [Ast.each2] using hp) e
  | .choiceify s as, n, hp, h => by
    rw [flattenTy2] at h
    obtain ⟨m, e, h⟩ := okBind h
    cases h
    refine ruleGeneric_over (fun n h => ?_) e
    obtain ⟨m, e, h⟩ := okBind h
    exact nameGeneric_over (flattenTypename_over hb e) (fun l e => flattenTy1s_over (by simpa [Ast.each2] using hp) e) h
theorem flattenTy1_over : ∀ {t : Ty1} {n : Node}, Ast.each1 P t → flattenTy1 rx t = .ok n → n.Over S
  | .simple t, n, hp, h => flattenTy2_over (by simpa [Ast.each1] using hp) (by simpa [flattenTy1] using h)
  | .range a b i, n, hp, h => by
    rw [Ast.each1] at hp
    rw [flattenTy1] at h
    obtain ⟨m, e, h⟩ := okBind h
    obtain ⟨k, e', h⟩ := okBind h
    cases h
    have h1 := flattenPoint_over hp.1 e
    have h2 := flattenPoint_over hp.2 e'
    intro x hx
    simp only [Node.lits, List.mem_append] at hx
    exact hx.elim (h1 x) (h2 x)
  | .control a b op, n, hp, h => by
    rw [Ast.each1] at hp
    rw [flattenTy1] at h
    split at h
    · obtain ⟨m, e, h⟩ := okBind h
      obtain ⟨k, e', h⟩ := okBind h
      exact controlOf_over (flattenTy2_over hp.1 e) (flattenTy2_over hp.2 e') h
    · cases h
theorem flattenPoint_over : ∀ {t : Ty2} {n : Node}, Ast.each2 P t → flattenPoint rx t = .ok n → n.Over S
  | .value v, n, hp, h => by
    rw [flattenPoint] at h
    obtain ⟨m, e, h⟩ := okBind h
    rw [rangePointCheck_eq h]
    exact hv v m (by simpa [Ast.each2] using hp) e
  | .typename s as, n, hp, h => by
    rw [flattenPoint] at h
    obtain ⟨m, e, h⟩ := okBind h
    rw [rangePointCheck_eq h]
    obtain ⟨k, e', h'⟩ := okBind e
    exact nameGeneric_over (flattenTypename_over hb e') (fun l e => flattenTy1s_over (by simpa [Ast.each2] using hp) e) h'
  | .parens _, _, _, h => by simp [flattenPoint] at h
  | .map _, _, _, h => by simp [flattenPoint] at h
  | .array _, _, _, h => by simp [flattenPoint] at h
  | .unwrap _ _, _, _, h => by simp [flattenPoint] at h
  | .choiceifyInline _, _, _, h => by simp [flattenPoint] at h
  | .choiceify _ _, _, _, h => by simp [flattenPoint] at h
theorem flattenTy1s_over : ∀ {t : List Ty1} {l : List Node}, Ast.each1s P t → flattenTy1s rx t = .ok l → overs S l
  | [], l, _, h => by
    rw [flattenTy1s] at h
    cases h
    intro x hx; cases hx
  | t :: ts, l, hp, h => by
    rw [Ast.each1s] at hp
    rw [flattenTy1s] at h
    obtain ⟨m, e, h⟩ := okBind h
    obtain ⟨k, e', h⟩ := okBind h
    cases h
    exact overs_cons.mpr ⟨flattenTy1_over hp.1 e, flattenTy1s_over hp.2 e'⟩
theorem flattenGroup_over : ∀ {g : List (List GrpEnt)} {l : List Node}, Ast.eachGroup P g → flattenGroup rx g = .ok l → overs S l
  | [], l, _, h => by
    rw [flattenGroup] at h
    cases h
    intro x hx; cases hx
  | c :: cs, l, hp, h => by
    rw [Ast.eachGroup] at hp
    rw [flattenGroup] at h
    obtain ⟨m, e, h⟩ := okBind h
    obtain ⟨k, e', h⟩ := okBind h
    have h1 := flattenGroupchoice_over hp.1 e
    split at h
    · cases h; exact h1
    · cases h
      refine overs_cons.mpr ⟨?_, fun x hx => by cases hx⟩
      exact overs_cons.mpr ⟨h1, flattenGroupOptions_over hp.2 e'⟩
theorem flattenGroupOptions_over : ∀ {g : List (List GrpEnt)} {l : List Node}, Ast.eachGroup P g →
    flattenGroupOptions rx g = .ok l → overs S l
  | [], l, _, h => by
    rw [flattenGroupOptions] at h
    cases h
    intro x hx; cases hx
  | c :: cs, l, hp, h => by
    rw [Ast.eachGroup] at hp
    rw [flattenGroupOptions] at h
    obtain ⟨m, e, h⟩ := okBind h
    obtain ⟨k, e', h⟩ := okBind h
    cases h
    exact overs_cons.mpr ⟨flattenGroupchoice_over hp.1 e, flattenGroupOptions_over hp.2 e'⟩
theorem flattenGroupchoice_over : ∀ {g : List GrpEnt} {l : List Node}, Ast.eachEntries P g →
    flattenGroupchoice rx g = .ok l → overs S l
  | [], l, _, h => by
    rw [flattenGroupchoice] at h
    cases h
    intro x hx; cases hx
  | c :: cs, l, hp, h => by
    rw [Ast.eachEntries] at hp
    rw [flattenGroupchoice] at h
    obtain ⟨m, e, h⟩ := okBind h
    obtain ⟨k, e', h⟩ := okBind h
    cases h
    exact overs_cons.mpr ⟨flattenGroupentry_over hp.1 e, flattenGroupchoice_over hp.2 e'⟩
theorem flattenGroupentry_over : ∀ {e : GrpEnt} {n : Node}, Ast.eachEntry P e → flattenGroupentry rx e = .ok n → n.Over S
  | .mk o v, n, hp, h => by
    rw [Ast.eachEntry] at hp
    rw [flattenGroupentry] at h
    obtain ⟨m, e, h⟩ := okBind h
    cases h
    exact occurWrap_over (flattenGroupentryVal_over hp e)
theorem flattenGroupentryVal_over : ∀ {v : GrpEntVal} {n : Node}, Ast.eachEntryVal P v → flattenGroupentryVal rx v = .ok n →
    n.Over S
  | .member t, n, hp, h => by
    rw [Ast.eachEntryVal] at hp
    rw [flattenGroupentryVal] at h
    obtain ⟨m, e, h⟩ := okBind h
    exact typeOfOptions_over (flattenTy1s_over hp e) h
  | .keyed k cut t, n, hp, h => by
    rw [Ast.eachEntryVal] at hp
    rw [flattenGroupentryVal] at h
    obtain ⟨m, e, h⟩ := okBind h
    obtain ⟨j, e', h⟩ := okBind h
    obtain ⟨i, e2, e3⟩ := okBind e'
    cases h
    have h1 := flattenMemberkey_over hp.1 e
    have h2 := typeOfOptions_over (flattenTy1s_over hp.2 e2) e3
    intro x hx
    simp only [Node.lits, List.mem_append] at hx
    exact hx.elim (h1 x) (h2 x)
  | .groupname s, n, _, h => by
    rw [flattenGroupentryVal] at h
    exact flattenTypename_over hb h
  | .parens g, n, hp, h => by
    rw [Ast.eachEntryVal] at hp
    rw [flattenGroupentryVal] at h
    obtain ⟨m, e, h⟩ := okBind h
    cases h
    exact flattenGroup_over hp e
theorem flattenMemberkey_over : ∀ {k : MemberKeyVal} {n : Node}, Ast.eachKey P k → flattenMemberkey rx k = .ok n → n.Over S
  | .bareword s, n, _, h => by
    rw [flattenMemberkey] at h
    cases h
    intro x hx
    cases hx with
    | head => exact ht s
    | tail _ hx => cases hx
  | .type1 t, n, hp, h => flattenTy1_over (by simpa [Ast.eachKey] using hp) (by simpa [flattenMemberkey] using h)
  | .value v, n, hp, h => hv v n (by simpa [Ast.eachKey] using hp) (by simpa [flattenMemberkey] using h)
end

theorem flattenRule_over {r : Ast.Rule} {q : String × RuleDef} (hp : Ast.eachRule P r) (h : flattenRule rx r = .ok q) :
    q.2.node.Over S := by
  unfold flattenRule at h
  obtain ⟨n, e, h⟩ := okBind h
  cases h
  show n.Over S
  unfold Ast.eachRule at hp
  cases hr : r.val with
  | assignType t =>
    rw [hr] at e hp
    obtain ⟨l, e, h⟩ := okBind e
    exact typeOfOptions_over (flattenTy1s_over ht hb hv hp e) h
  | assignGroup g =>
    rw [hr] at e hp
    exact flattenGroupentry_over ht hb hv hp e

theorem flatten_over {c : Ast.Cddl} {t : RuleTable} (hp : ∀ r ∈ c, Ast.eachRule P r) (h : flatten rx c = .ok t) :
    ∀ q ∈ t, q.2.node.Over S := by
  unfold flatten at h
  induction c generalizing t with
  | nil => simp only [collectRes] at h; cases h; intro q hq; cases hq
  | cons r c ih =>
    simp only [collectRes] at h
    obtain ⟨p, e, h⟩ := okBind h
    obtain ⟨l, e', h⟩ := okBind h
    cases h
    intro q hq
    rcases List.mem_cons.mp hq with rfl | hq
    · exact flattenRule_over ht hb hv (hp r (by simp)) e
    · exact ih (fun r hr => hp r (by simp [hr])) e' q hq

end Flat

end Cddl
