import Verif.Spec.Reword
import Verif.Spec.RewordTree
import Verif.Spec.Print
import Verif.Model.Flatten

/-! # Translating a schema with other texts -/

namespace Cddl

open Ast (Ty1 Ty2 MemberKeyVal GrpEntVal GrpEnt RuleVal)

variable {f : String → String} {re : String → Bool}

/-- The result with other texts. -/
def wordRes (f : String → String) (r : Res Node) : Res Node := r.bind fun n => .ok (n.reword f)

/-- The results with other texts. -/
def wordRess (f : String → String) (r : Res (List Node)) : Res (List Node) := r.bind fun n => .ok (Node.rewordL f n)

theorem flattenValue_reword (v : Ast.Value) : flattenValue (v.reword f) = wordRes f (flattenValue v) := by
  cases v with
  | text s => rfl
  | float s => rfl
  | bytes s => rfl
  | uint n =>
    simp only [Ast.Value.reword, flattenValue, wordRes]
    cases numToI128 (n : Int) <;> rfl
  | nint n =>
    simp only [Ast.Value.reword, flattenValue, wordRes]
    cases numToI128 n <;> rfl

theorem flattenTypename_reword (s : String) : wordRes f (flattenTypename s) = flattenTypename s := by
  have ite : ∀ (p : Prop) [Decidable p] (a b : Res Node), wordRes f a = a → wordRes f b = b →
      wordRes f (if p then a else b) = if p then a else b := by
    intro p _ a b ha hb
    split <;> assumption
  unfold flattenTypename
  repeat' apply ite
  all_goals rfl

theorem typenameNode_reword {s : String} {n : Node} (h : flattenTypename s = .ok n) : n.reword f = n := by
  have := flattenTypename_reword (f := f) s
  rw [h] at this
  simpa [wordRes, Res.bind] using this

theorem rewordL_append : ∀ a b : List Node, Node.rewordL f (a ++ b) = Node.rewordL f a ++ Node.rewordL f b
  | [], _ => rfl
  | n :: a, b => by simp only [List.cons_append, Node.rewordL, rewordL_append a b]

theorem rewordL_length : ∀ a : List Node, (Node.rewordL f a).length = a.length
  | [] => rfl
  | n :: a => by simp only [Node.rewordL, List.length_cons, rewordL_length a]

theorem nameGeneric_reword {n : Node} {a : Res (List Node)} {b : Bool} :
    nameGeneric (n.reword f) (wordRess f a) b = wordRes f (nameGeneric n a b) := by
  cases n <;> simp only [Node.reword, nameGeneric, wordRes, wordRess] <;>
    first
    | (cases a <;> simp only [Res.bind, Node.reword, rewordL_append]; done)
    | (cases b <;> rfl)

theorem typenameGeneric_reword {s : String} {a : Res (List Node)} {b : Bool} :
    ((flattenTypename s).bind fun n => nameGeneric n (wordRess f a) b) =
      wordRes f ((flattenTypename s).bind fun n => nameGeneric n a b) := by
  cases h : flattenTypename s with
  | ok n =>
    have := nameGeneric_reword (f := f) (n := n) (a := a) (b := b)
    rw [typenameNode_reword h] at this
    exact this
  | err e => rfl
  | panic => rfl
  | fuel => rfl

theorem ruleGeneric_reword (r : Res Node) :
    ruleGeneric (wordRes f r) = (ruleGeneric r).bind fun p => .ok (p.1, Node.rewordL f p.2) := by
  cases r with
  | ok n => cases n <;> rfl
  | err e => rfl
  | panic => rfl
  | fuel => rfl

theorem typeOfOptions_reword (l : List Node) : typeOfOptions (Node.rewordL f l) = wordRes f (typeOfOptions l) := by
  match l with
  | [] => rfl
  | [n] => rfl
  | n :: m :: l => simp [typeOfOptions, Node.rewordL, wordRes, Res.bind, Node.reword, rewordL_length]

theorem options_reword (r : Res (List Node)) :
    (wordRess f r).bind typeOfOptions = wordRes f (r.bind typeOfOptions) := by
  cases r with
  | ok l => exact typeOfOptions_reword l
  | err e => rfl
  | panic => rfl
  | fuel => rfl

theorem point_reword (r : Res Node) : (wordRes f r).bind rangePointCheck = wordRes f (r.bind rangePointCheck) := by
  cases r with
  | ok n => cases n <;> rfl
  | err e => rfl
  | panic => rfl
  | fuel => rfl

theorem occurWrap_reword (o : Option OccurLimit) (n : Node) : occurWrap o (n.reword f) = (occurWrap o n).reword f := by
  cases o <;> rfl

theorem controlOf_reword {op : String} (h : op ≠ "regexp") (t a : Node) :
    controlOf re op (t.reword f) (a.reword f) = wordRes f (controlOf re op t a) := by
  unfold controlOf
  by_cases h1 : op = "size"
  · simp only [h1, if_true]
    cases a with
    | literal l => cases l <;> rfl
    | _ => rfl
  by_cases h2 : op = "lt"
  · simp only [h1, h2, if_true, if_false]
    cases a with
    | literal l => cases l <;> rfl
    | _ => rfl
  by_cases h3 : op = "le"
  · simp only [h1, h2, h3, if_true, if_false]
    cases a with
    | literal l => cases l <;> rfl
    | _ => rfl
  by_cases h4 : op = "gt"
  · simp only [h1, h2, h3, h4, if_true, if_false]
    cases a with
    | literal l => cases l <;> rfl
    | _ => rfl
  by_cases h5 : op = "ge"
  · simp only [h1, h2, h3, h4, h5, if_true, if_false]
    cases a with
    | literal l => cases l <;> rfl
    | _ => rfl
  simp only [h1, h2, h3, h4, h5, h, if_false]
  cases t with
  | prelude p => cases p <;> rfl
  | _ => rfl

theorem controlOf_regexp (t a : Node) :
    controlOf re "regexp" (t.reword f) a = wordRes f (controlOf re "regexp" t a) := by
  have e : ∀ t, controlOf re "regexp" t a = match t with
    | .prelude .tstr =>
      match a with
      | .literal (.text p) => if re p then .ok (.ctlRegexp p) else .err (.structural "malformed regexp")
      | _ => .err (.structural "improper regexp type")
    | _ => .err (.structural "bad regexp target type") := by
    intro t
    unfold controlOf
    simp
    rfl
  rw [e, e]
  cases t with
  | prelude p =>
    cases p with
    | tstr =>
      cases a with
      | literal l =>
        cases l with
        | text p =>
          simp only [Node.reword]
          cases re p <;> rfl
        | _ => rfl
      | _ => rfl
    | _ => rfl
  | _ => rfl

theorem rewords_isEmpty (l : List Ty1) : (Ty1.rewords f l).isEmpty = l.isEmpty := by
  cases l <;> simp only [Ty1.rewords, List.isEmpty]

theorem rewordss_isEmpty (l : List (List GrpEnt)) : (GrpEnt.rewordss f l).isEmpty = l.isEmpty := by
  cases l <;> simp only [GrpEnt.rewordss, List.isEmpty]

/-- Two results in turn. -/
theorem cons_reword (r : Res Node) (s : Res (List Node)) :
    ((wordRes f r).bind fun n => (wordRess f s).bind fun ns => .ok (n :: ns)) =
      wordRess f (r.bind fun n => s.bind fun ns => .ok (n :: ns)) := by
  cases r <;> cases s <;> simp only [wordRes, wordRess, Res.bind, Node.rewordL]

mutual
theorem flattenTy2_reword : ∀ t : Ty2, flattenTy2 re (t.reword f) = wordRes f (flattenTy2 re t)
  | .value v => by simp only [Ty2.reword, flattenTy2]; exact flattenValue_reword v
  | .typename s as => by
    simp only [Ty2.reword, flattenTy2, rewords_isEmpty, flattenTy1s_reword as]
    exact typenameGeneric_reword
  | .parens t => by
    simp only [Ty2.reword, flattenTy2, flattenTy1s_reword t]
    exact options_reword _
  | .map g => by
    simp only [Ty2.reword, flattenTy2, flattenGroup_reword g]
    cases flattenGroup re g <;> rfl
  | .array g => by
    simp only [Ty2.reword, flattenTy2, flattenGroup_reword g]
    cases flattenGroup re g <;> rfl
  | .unwrap s as => by
    simp only [Ty2.reword, flattenTy2, rewords_isEmpty, flattenTy1s_reword as, typenameGeneric_reword, ruleGeneric_reword]
    cases ruleGeneric _ <;> rfl
  | .choiceifyInline g => by
    simp only [Ty2.reword, flattenTy2, flattenGroup_reword g]
    cases flattenGroup re g <;> rfl
  | .choiceify s as => by
    simp only [Ty2.reword, flattenTy2, rewords_isEmpty, flattenTy1s_reword as, typenameGeneric_reword, ruleGeneric_reword]
    cases ruleGeneric _ <;> rfl
theorem flattenTy1_reword : ∀ t : Ty1, flattenTy1 re (t.reword f) = wordRes f (flattenTy1 re t)
  | .simple t => by simp only [Ty1.reword, flattenTy1]; exact flattenTy2_reword t
  | .range a b i => by
    simp only [Ty1.reword, flattenTy1, flattenPoint_reword a, flattenPoint_reword b]
    cases flattenPoint re a <;> cases flattenPoint re b <;> rfl
  | .control t a op => by
    simp only [Ty1.reword, flattenTy1]
    by_cases hk : knownControl op = true
    · simp only [hk, if_true]
      rw [flattenTy2_reword t]
      by_cases ho : op = "regexp"
      · subst ho
        simp only [if_true]
        cases flattenTy2 re t with
        | ok n =>
          cases flattenTy2 re a with
          | ok m => exact controlOf_regexp n m
          | err e => rfl
          | panic => rfl
          | fuel => rfl
        | err e => rfl
        | panic => rfl
        | fuel => rfl
      · simp only [ho, if_false]
        rw [flattenTy2_reword a]
        cases flattenTy2 re t with
        | ok n =>
          cases flattenTy2 re a with
          | ok m => exact controlOf_reword ho n m
          | err e => rfl
          | panic => rfl
          | fuel => rfl
        | err e => rfl
        | panic => rfl
        | fuel => rfl
    · simp only [hk]
      rfl
theorem flattenPoint_reword : ∀ t : Ty2, flattenPoint re (t.reword f) = wordRes f (flattenPoint re t)
  | .value v => by simp only [Ty2.reword, flattenPoint, flattenValue_reword]; exact point_reword _
  | .typename s as => by
    simp only [Ty2.reword, flattenPoint, rewords_isEmpty, flattenTy1s_reword as, typenameGeneric_reword]
    exact point_reword _
  | .parens t => rfl
  | .map g => rfl
  | .array g => rfl
  | .unwrap s as => rfl
  | .choiceifyInline g => rfl
  | .choiceify s as => rfl
theorem flattenTy1s_reword : ∀ l : List Ty1, flattenTy1s re (Ty1.rewords f l) = wordRess f (flattenTy1s re l)
  | [] => rfl
  | t :: l => by
    simp only [Ty1.rewords, flattenTy1s, flattenTy1_reword t, flattenTy1s_reword l]
    exact cons_reword _ _
theorem flattenGroup_reword : ∀ g : List (List GrpEnt), flattenGroup re (GrpEnt.rewordss f g) = wordRess f (flattenGroup re g)
  | [] => rfl
  | gc :: g => by
    simp only [GrpEnt.rewordss, flattenGroup, flattenGroupchoice_reword gc, flattenGroupOptions_reword g, rewordss_isEmpty]
    cases flattenGroupchoice re gc <;> cases flattenGroupOptions re g <;> cases g <;> rfl
theorem flattenGroupOptions_reword : ∀ g : List (List GrpEnt),
    flattenGroupOptions re (GrpEnt.rewordss f g) = wordRess f (flattenGroupOptions re g)
  | [] => rfl
  | gc :: g => by
    simp only [GrpEnt.rewordss, flattenGroupOptions, flattenGroupchoice_reword gc, flattenGroupOptions_reword g]
    cases flattenGroupchoice re gc <;> cases flattenGroupOptions re g <;> rfl
theorem flattenGroupchoice_reword : ∀ g : List GrpEnt,
    flattenGroupchoice re (GrpEnt.rewords f g) = wordRess f (flattenGroupchoice re g)
  | [] => rfl
  | e :: g => by
    simp only [GrpEnt.rewords, flattenGroupchoice, flattenGroupentry_reword e, flattenGroupchoice_reword g]
    exact cons_reword _ _
theorem flattenGroupentry_reword : ∀ e : GrpEnt, flattenGroupentry re (e.reword f) = wordRes f (flattenGroupentry re e)
  | .mk o v => by
    simp only [GrpEnt.reword, flattenGroupentry, flattenGroupentryVal_reword v]
    cases flattenGroupentryVal re v with
    | ok n => simp only [wordRes, Res.bind, occurWrap_reword]
    | err e => rfl
    | panic => rfl
    | fuel => rfl
theorem flattenGroupentryVal_reword : ∀ v : GrpEntVal,
    flattenGroupentryVal re (v.reword f) = wordRes f (flattenGroupentryVal re v)
  | .member t => by
    simp only [GrpEntVal.reword, flattenGroupentryVal, flattenTy1s_reword t]
    exact options_reword _
  | .keyed k cut t => by
    simp only [GrpEntVal.reword, flattenGroupentryVal, flattenTy1s_reword t, flattenMemberkey_reword k, options_reword]
    cases flattenMemberkey re k <;> cases (flattenTy1s re t).bind typeOfOptions <;> rfl
  | .groupname s => by simp only [GrpEntVal.reword, flattenGroupentryVal, flattenTypename_reword]
  | .parens g => by
    simp only [GrpEntVal.reword, flattenGroupentryVal, flattenGroup_reword g]
    cases flattenGroup re g <;> rfl
theorem flattenMemberkey_reword : ∀ k : MemberKeyVal, flattenMemberkey re (k.reword f) = wordRes f (flattenMemberkey re k)
  | .bareword s => rfl
  | .type1 t => by simp only [MemberKeyVal.reword, flattenMemberkey]; exact flattenTy1_reword t
  | .value v => by simp only [MemberKeyVal.reword, flattenMemberkey]; exact flattenValue_reword v
end

theorem flattenRule_reword (r : Ast.Rule) : flattenRule re ⟨r.name, r.params, r.val.reword f⟩ =
    (flattenRule re r).bind fun p => .ok (p.1, p.2.reword f) := by
  unfold flattenRule
  cases hv : r.val with
  | assignType t =>
    simp only [RuleVal.reword, flattenType, flattenTy1s_reword, options_reword]
    cases (flattenTy1s re t).bind typeOfOptions <;> rfl
  | assignGroup g =>
    simp only [RuleVal.reword, flattenGroupentry_reword]
    cases flattenGroupentry re g <;> rfl

theorem flatten_reword : ∀ c : Ast.Cddl, flatten re (c.reword f) = (flatten re c).bind fun t => .ok (t.reword f)
  | [] => rfl
  | r :: c => by
    have ih := flatten_reword c
    unfold flatten Ast.Cddl.reword at ih ⊢
    simp only [List.map_cons, collectRes, flattenRule_reword, ih]
    cases flattenRule re r <;> cases collectRes (flattenRule re) c <;> rfl

section
variable {x : ParseExt} {p : PrintExt}

theorem okValue_reword (ht : ∀ s, OkValue x p (.text s) → OkValue x p (.text (f s))) :
    ∀ {v : Ast.Value}, OkValue x p v → OkValue x p (v.reword f)
  | .text _, h => ht _ h
  | .uint _, h => h
  | .nint _, h => h
  | .float _, h => h
  | .bytes _, h => h

theorem rewords_ne {l : List Ty1} (h : l ≠ []) : Ty1.rewords f l ≠ [] := by
  cases l with
  | nil => exact absurd rfl h
  | cons _ _ => simp [Ty1.rewords]

theorem rewordss_ne {l : List (List GrpEnt)} (h : l ≠ []) : GrpEnt.rewordss f l ≠ [] := by
  cases l with
  | nil => exact absurd rfl h
  | cons _ _ => simp [GrpEnt.rewordss]

mutual
theorem okTy2_reword (hi : ∀ s : String, Ident s.toList → Ident (f s).toList)
    (ht : ∀ s, OkValue x p (.text s) → OkValue x p (.text (f s))) : ∀ t : Ty2, OkTy2 x p t → OkTy2 x p (t.reword f)
  | .value _, h => by simp only [Ty2.reword, OkTy2] at h ⊢; exact okValue_reword ht h
  | .typename _ as, h => by simp only [Ty2.reword, OkTy2] at h ⊢; exact ⟨h.1, okTy1s_reword hi ht as h.2⟩
  | .parens t, h => by simp only [Ty2.reword, OkTy2] at h ⊢; exact ⟨rewords_ne h.1, okTy1s_reword hi ht t h.2⟩
  | .map g, h => by simp only [Ty2.reword, OkTy2] at h ⊢; exact ⟨rewordss_ne h.1, okGroup_reword hi ht g h.2⟩
  | .array g, h => by simp only [Ty2.reword, OkTy2] at h ⊢; exact ⟨rewordss_ne h.1, okGroup_reword hi ht g h.2⟩
  | .unwrap _ as, h => by simp only [Ty2.reword, OkTy2] at h ⊢; exact ⟨h.1, okTy1s_reword hi ht as h.2⟩
  | .choiceifyInline g, h => by simp only [Ty2.reword, OkTy2] at h ⊢; exact ⟨rewordss_ne h.1, okGroup_reword hi ht g h.2⟩
  | .choiceify _ as, h => by simp only [Ty2.reword, OkTy2] at h ⊢; exact ⟨h.1, okTy1s_reword hi ht as h.2⟩
theorem okTy1_reword (hi : ∀ s : String, Ident s.toList → Ident (f s).toList)
    (ht : ∀ s, OkValue x p (.text s) → OkValue x p (.text (f s))) : ∀ t : Ty1, OkTy1 x p t → OkTy1 x p (t.reword f)
  | .simple t, h => by simp only [Ty1.reword, OkTy1] at h ⊢; exact okTy2_reword hi ht t h
  | .range a b _, h => by
    simp only [Ty1.reword, OkTy1] at h ⊢; exact ⟨okTy2_reword hi ht a h.1, okTy2_reword hi ht b h.2⟩
  | .control t a op, h => by
    simp only [Ty1.reword, OkTy1] at h ⊢
    refine ⟨okTy2_reword hi ht t h.1, ?_, h.2.2⟩
    have := okTy2_reword hi ht a h.2.1
    split
    · exact h.2.1
    · exact this
theorem okTy1s_reword (hi : ∀ s : String, Ident s.toList → Ident (f s).toList)
    (ht : ∀ s, OkValue x p (.text s) → OkValue x p (.text (f s))) :
    ∀ l : List Ty1, OkTy1s x p l → OkTy1s x p (Ty1.rewords f l)
  | [], _ => by simp only [Ty1.rewords, OkTy1s]
  | t :: l, h => by
    simp only [Ty1.rewords, OkTy1s] at h ⊢; exact ⟨okTy1_reword hi ht t h.1, okTy1s_reword hi ht l h.2⟩
theorem okGroup_reword (hi : ∀ s : String, Ident s.toList → Ident (f s).toList)
    (ht : ∀ s, OkValue x p (.text s) → OkValue x p (.text (f s))) :
    ∀ g : List (List GrpEnt), OkGroup x p g → OkGroup x p (GrpEnt.rewordss f g)
  | [], _ => by simp only [GrpEnt.rewordss, OkGroup]
  | c :: g, h => by
    simp only [GrpEnt.rewordss, OkGroup] at h ⊢; exact ⟨okChoice_reword hi ht c h.1, okGroup_reword hi ht g h.2⟩
theorem okChoice_reword (hi : ∀ s : String, Ident s.toList → Ident (f s).toList)
    (ht : ∀ s, OkValue x p (.text s) → OkValue x p (.text (f s))) :
    ∀ g : List GrpEnt, OkChoice x p g → OkChoice x p (GrpEnt.rewords f g)
  | [], _ => by simp only [GrpEnt.rewords, OkChoice]
  | e :: g, h => by
    simp only [GrpEnt.rewords, OkChoice] at h ⊢; exact ⟨okEntry_reword hi ht e h.1, okChoice_reword hi ht g h.2⟩
theorem okEntry_reword (hi : ∀ s : String, Ident s.toList → Ident (f s).toList)
    (ht : ∀ s, OkValue x p (.text s) → OkValue x p (.text (f s))) : ∀ e : GrpEnt, OkEntry x p e → OkEntry x p (e.reword f)
  | .mk none v, h => by simp only [GrpEnt.reword, OkEntry] at h ⊢; exact okVal_reword hi ht v h
  | .mk (some _) v, h => by simp only [GrpEnt.reword, OkEntry] at h ⊢; exact ⟨h.1, okVal_reword hi ht v h.2⟩
theorem okVal_reword (hi : ∀ s : String, Ident s.toList → Ident (f s).toList)
    (ht : ∀ s, OkValue x p (.text s) → OkValue x p (.text (f s))) : ∀ v : GrpEntVal, OkVal x p v → OkVal x p (v.reword f)
  | .member t, h => by simp only [GrpEntVal.reword, OkVal] at h ⊢; exact ⟨rewords_ne h.1, okTy1s_reword hi ht t h.2⟩
  | .keyed (.bareword s) _ t, h => by
    simp only [GrpEntVal.reword, MemberKeyVal.reword, OkVal] at h ⊢
    exact ⟨h.1, hi _ h.2.1, rewords_ne h.2.2.1, okTy1s_reword hi ht t h.2.2.2⟩
  | .keyed (.value v) _ t, h => by
    simp only [GrpEntVal.reword, MemberKeyVal.reword, OkVal] at h ⊢
    exact ⟨h.1, okValue_reword ht h.2.1, rewords_ne h.2.2.1, okTy1s_reword hi ht t h.2.2.2⟩
  | .keyed (.type1 u) _ t, h => by
    simp only [GrpEntVal.reword, MemberKeyVal.reword, OkVal] at h ⊢
    exact ⟨okTy1_reword hi ht u h.1, rewords_ne h.2.1, okTy1s_reword hi ht t h.2.2⟩
  | .groupname _, h => by simp only [OkVal] at h
  | .parens g, h => by simp only [GrpEntVal.reword, OkVal] at h ⊢; exact ⟨rewordss_ne h.1, okGroup_reword hi ht g h.2⟩
end

theorem okCddl_reword (hi : ∀ s : String, Ident s.toList → Ident (f s).toList)
    (ht : ∀ s, OkValue x p (.text s) → OkValue x p (.text (f s))) {c : Ast.Cddl} (h : OkCddl x p c) :
    OkCddl x p (c.reword f) := by
  refine ⟨by simpa [Ast.Cddl.reword] using h.1, ?_⟩
  intro r hr
  simp only [Ast.Cddl.reword, List.mem_map] at hr
  obtain ⟨q, hq, rfl⟩ := hr
  obtain ⟨h1, h2, h3⟩ := h.2 q hq
  refine ⟨h1, h2, ?_⟩
  cases hv : q.val with
  | assignType t =>
    rw [hv] at h3
    exact ⟨rewords_ne h3.1, okTy1s_reword hi ht t h3.2⟩
  | assignGroup e =>
    rw [hv] at h3
    refine ⟨okEntry_reword hi ht e h3.1, ?_⟩
    match e, h3.2 with
    | .mk none (.parens _), _ => trivial
    | .mk (some (.numbered _ _)) _, h => exact h
    | .mk (some .optional) _, _ => trivial
    | .mk (some .zeroOrMore) _, _ => trivial
    | .mk (some .oneOrMore) _, _ => trivial

end

end Cddl
