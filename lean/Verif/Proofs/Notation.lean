import Verif.Spec.Notation
import Verif.Proofs.FlatTable
import Verif.Proofs.Cong

/-! # Flattening different notations -/

namespace Cddl

open Ast (Ty1 Ty2 MemberKeyVal GrpEntVal GrpEnt RuleVal)

/-- Corresponding results. -/
inductive RR {α β : Type} (P : α → β → Prop) : Res α → Res β → Prop
  | ok {a b} : P a b → RR P (.ok a) (.ok b)
  | err (e) : RR P (.err e) (.err e)
  | panic : RR P .panic .panic
  | fuel : RR P .fuel .fuel

theorem RR.bind {α β γ δ : Type} {P : α → β → Prop} {Q : γ → δ → Prop} {r : Res α} {s : Res β} {f : α → Res γ} {g : β → Res δ}
    (h : RR P r s) (hf : ∀ a b, P a b → RR Q (f a) (g b)) : RR Q (r.bind f) (s.bind g) := by
  cases h with
  | ok h => exact hf _ _ h
  | err => exact .err _
  | panic => exact .panic
  | fuel => exact .fuel

theorem RR.imp {α β : Type} {P Q : α → β → Prop} {r : Res α} {s : Res β} (h : RR P r s) (hf : ∀ a b, P a b → Q a b) : RR Q r s := by
  cases h with
  | ok h => exact .ok (hf _ _ h)
  | err => exact .err _
  | panic => exact .panic
  | fuel => exact .fuel

theorem RR.refl {α : Type} {P : α → α → Prop} (hP : ∀ a, P a a) (r : Res α) : RR P r r := by
  cases r with
  | ok a => exact .ok (hP a)
  | err => exact .err _
  | panic => exact .panic
  | fuel => exact .fuel

theorem Cong.rfl' {κ a : Bool} (n : Node) : Cong Eq κ a n n := .refl fun _ _ => rfl

variable {re : String → Bool} {κ : Bool}

theorem sameName_flatten {s s' : String} (h : SameName s s') :
    flattenTypename s = flattenTypename s' := by
  rcases h with rfl | ⟨n, h1, h2⟩
  · rfl
  · rw [preludeTable_flatten _ h1, preludeTable_flatten _ h2]

theorem rr_nameGeneric (n : Node) {as as' : Res (List Node)} (b : Bool) (h : RR (CongL Eq κ false) as as')
    (hn : ∀ s ms, n = .rule s ms → ms = []) :
    RR (Cong Eq κ false) (nameGeneric n as b) (nameGeneric n as' b) := by
  unfold nameGeneric
  split
  · rename_i s ms
    obtain rfl := hn s ms rfl
    exact h.bind fun _ _ h => .ok (.rule _ rfl h)
  · exact .refl .rfl' _

theorem typename_rule {s t : String} {n : Node} {ms : List Node} (h : flattenTypename s = .ok n) (hn : n = .rule t ms) : ms = [] := by
  rcases name_cases s with ⟨m, h1⟩ | h1 | h1
  · rw [preludeTable_flatten _ h1] at h
    cases h; subst hn
    simp [preludeTable] at h1
  · rw [unsupported_flatten _ h1] at h; cases h
  · rw [user_flatten h1] at h; cases h; cases hn; rfl

theorem rr_name {s s' : String} (hs : SameName s s') {as as' : Res (List Node)} {b b' : Bool} (hb : b = b')
    (h : RR (CongL Eq κ false) as as') :
    RR (Cong Eq κ false) ((flattenTypename s).bind fun n => nameGeneric n as b)
      ((flattenTypename s').bind fun n => nameGeneric n as' b') := by
  subst hb
  rw [← sameName_flatten hs]
  cases hf : flattenTypename s with
  | ok n => exact rr_nameGeneric n b h fun _ _ => typename_rule hf
  | err => exact .err _
  | panic => exact .panic
  | fuel => exact .fuel

theorem rr_ruleGeneric {r r' : Res Node} (h : RR (Cong Eq κ false) r r') :
    RR (fun p p' : String × List Node => p.1 = p'.1 ∧ CongL Eq κ false p.2 p'.2) (ruleGeneric r) (ruleGeneric r') := by
  cases h with
  | ok h => cases h <;> first | exact .err _ | exact .ok ⟨‹_›, ‹_›⟩
  | err => exact .err _
  | panic => exact .panic
  | fuel => exact .fuel

theorem rr_options {l l' : List Node} (h : CongL Eq κ false l l') :
    RR (Cong Eq κ false) (typeOfOptions l) (typeOfOptions l') := by
  cases h with
  | nil => exact .err _
  | cons h1 h2 =>
    cases h2 with
    | nil => exact .ok h1
    | cons h2 h3 => exact .ok (.choice (.cons h1 (.cons h2 h3)))

theorem rr_point {n n' : Node} (h : Cong Eq κ false n n') :
    RR (Cong Eq κ false) (rangePointCheck n) (rangePointCheck n') := by
  have h' := h
  cases h <;> first | exact .err _ | exact .ok h'

theorem rr_control (op : String) {t t' a a' : Node} (ht : Cong Eq κ false t t') (ha : Cong Eq κ false a a') :
    RR (Cong Eq κ false) (controlOf re op t a) (controlOf re op t' a') := by
  have ha' := ha
  have ht' := ht
  have arg : ∀ {o : CtlOp}, RR (Cong Eq κ false) (.ok (.ctl o t a)) (.ok (.ctl o t' a')) := .ok (.ctl _ _ ht ha)
  unfold controlOf
  split
  · cases ha with
    | literal _ l => cases l <;> first | exact .err _ | exact arg
    | _ => first | exact .err _ | exact arg
  split
  · cases ha with
    | literal _ l => cases l <;> first | exact .err _ | exact arg
    | _ => first | exact .err _ | exact arg
  split
  · cases ha with
    | literal _ l => cases l <;> first | exact .err _ | exact arg
    | _ => first | exact .err _ | exact arg
  split
  · cases ha with
    | literal _ l => cases l <;> first | exact .err _ | exact arg
    | _ => first | exact .err _ | exact arg
  split
  · cases ha with
    | literal _ l => cases l <;> first | exact .err _ | exact arg
    | _ => first | exact .err _ | exact arg
  split
  · cases ht with
    | «prelude» _ p =>
      cases p with
      | tstr =>
        cases ha with
        | literal _ l => exact .refl .rfl' _
        | _ => exact .err _
      | _ => exact .err _
    | _ => exact .err _
  · cases ht with
    | «prelude» _ p =>
      cases p with
      | bstr => exact .ok (.cbor _ ha')
      | _ => exact .err _
    | _ => exact .err _

theorem SameL.isEmpty {as as' : List Ty1} (h : SameL κ as as') : as.isEmpty = as'.isEmpty := by cases h <;> rfl
theorem SameG.isEmpty {a : Bool} {g g' : List (List GrpEnt)} (h : SameG κ a g g') : g.isEmpty = g'.isEmpty := by cases h <;> rfl

theorem open_one (t : Ty1) : flattenTy2 re (.parens [t]) = flattenTy1 re t := by
  simp only [flattenTy2, flattenTy1s]
  cases flattenTy1 re t <;> rfl

theorem open_type (t : List Ty1) : (flattenTy1s re [.simple (.parens t)]).bind typeOfOptions = (flattenTy1s re t).bind typeOfOptions := by
  simp only [flattenTy1s, flattenTy1, flattenTy2]
  cases (flattenTy1s re t).bind typeOfOptions <;> rfl

theorem groupname_member (s : String) : flattenGroupentryVal re (.member [.simple (.typename s [])]) =
    flattenGroupentryVal re (.groupname s) := by
  simp only [flattenGroupentryVal, flattenTy1s, flattenTy1, flattenTy2]
  cases h : flattenTypename s with
  | ok n =>
    cases n with
    | rule t ms => rw [typename_rule h rfl]; rfl
    | _ => rfl
  | _ => rfl

theorem keyIs_flatten {k : MemberKeyVal} {v : Ast.Value} (h : KeyIs k v) : flattenMemberkey re k = flattenValue v := by
  cases h <;> rfl

theorem valueIs_flatten {v : Ast.Value} {l : Literal} (h : ValueIs v l) : ∃ n, flattenValue v = .ok n := by
  cases h with
  | text | float | bytes => exact ⟨_, rfl⟩
  | uint n h =>
    refine ⟨.literal (.int n), ?_⟩
    simp only [flattenValue, numToI128]
    rw [if_pos (by omega)]; rfl
  | nint i h1 h2 =>
    refine ⟨.literal (.int i), ?_⟩
    simp only [flattenValue, numToI128]
    rw [if_pos (by omega)]; rfl

theorem flattenValue_isItem {v : Ast.Value} {n : Node} (h : flattenValue v = .ok n) : n.isItem = true := by
  cases v <;> simp only [flattenValue, Res.bind_eq_ok, Res.ok.injEq] at h
  · subst h; rfl
  · obtain ⟨_, _, rfl⟩ := h; rfl
  · obtain ⟨_, _, rfl⟩ := h; rfl
  · subst h; rfl
  · subst h; rfl

theorem item_isItem {t : List Ty1} (h : ItemTy t) {n : Node} (hn : (flattenTy1s re t).bind typeOfOptions = .ok n) : n.isItem = true := by
  have one : ∀ u, (flattenTy1s re [u]).bind typeOfOptions = flattenTy1 re u := fun u => by
    simp only [flattenTy1s]; cases flattenTy1 re u <;> rfl
  cases h with
  | value v => rw [one] at hn; exact flattenValue_isItem (by simpa [flattenTy1, flattenTy2] using hn)
  | «prelude» h =>
    rw [one] at hn
    simp only [flattenTy1, flattenTy2, preludeTable_flatten _ h, Res.bind] at hn
    simp only [preludeTable, List.mem_cons, Prod.mk.injEq, List.not_mem_nil, or_false] at h
    rcases h with ⟨-, rfl⟩ | ⟨-, rfl⟩ | ⟨-, rfl⟩ | ⟨-, rfl⟩ | ⟨-, rfl⟩ | ⟨-, rfl⟩ | ⟨-, rfl⟩ | ⟨-, rfl⟩ | ⟨-, rfl⟩ | ⟨-, rfl⟩ | ⟨-, rfl⟩ |
      ⟨-, rfl⟩ | ⟨-, rfl⟩ | ⟨-, rfl⟩ | ⟨-, rfl⟩ | ⟨-, rfl⟩ | ⟨-, rfl⟩ | ⟨-, rfl⟩ | ⟨-, rfl⟩ | ⟨-, rfl⟩ | ⟨-, rfl⟩ | ⟨-, rfl⟩ | ⟨-, rfl⟩ | ⟨-, rfl⟩ |
      ⟨-, rfl⟩ | ⟨-, rfl⟩ | ⟨-, rfl⟩ | ⟨-, rfl⟩ | ⟨-, rfl⟩ | ⟨-, rfl⟩ | ⟨-, rfl⟩ | ⟨-, rfl⟩ <;> cases hn <;> rfl
  | map | array | inline | choiceify =>
    rw [one] at hn
    simp only [flattenTy1, flattenTy2, Res.bind_eq_ok, Res.ok.injEq] at hn
    obtain ⟨_, _, rfl⟩ := hn; rfl
  | range =>
    rw [one] at hn
    simp only [flattenTy1, Res.bind_eq_ok, Res.ok.injEq] at hn
    obtain ⟨_, _, _, _, rfl⟩ := hn; rfl
  | control t a op =>
    rw [one] at hn
    simp only [flattenTy1] at hn
    split at hn
    · simp only [Res.bind_eq_ok] at hn
      obtain ⟨x, _, y, _, hn⟩ := hn
      unfold controlOf at hn
      repeat' split at hn
      all_goals cases hn <;> rfl
    · cases hn

mutual
theorem rr2 : ∀ {t t' : Ty2}, Same2 κ t t' → RR (Cong Eq κ false) (flattenTy2 re t) (flattenTy2 re t')
  | _, _, .value v => .refl .rfl' _
  | _, _, .typename hs h => by simp only [flattenTy2]; exact rr_name hs h.isEmpty (rr1s h)
  | _, _, .parens h => by simp only [flattenTy2]; exact rrT h
  | _, _, .openL h => by rw [open_one]; exact rr2 h
  | _, _, .openR h => by rw [open_one]; exact rr2 h
  | _, _, .map h => by simp only [flattenTy2]; exact (rrG h).1.bind fun _ _ h => .ok (.map _ h)
  | _, _, .array h => by simp only [flattenTy2]; exact (rrG h).1.bind fun _ _ h => .ok (.array _ h)
  | _, _, .unwrap s h => by
    simp only [flattenTy2]
    exact (rr_ruleGeneric (rr_name (.inl rfl) h.isEmpty (rr1s h))).bind fun _ _ h => .ok (.unwrap _ h.1 h.2)
  | _, _, .inline h => by simp only [flattenTy2]; exact (rrG h).1.bind fun _ _ h => .ok (.inline _ h)
  | _, _, .choiceify s h => by
    simp only [flattenTy2]
    exact (rr_ruleGeneric (rr_name (.inl rfl) h.isEmpty (rr1s h))).bind fun _ _ h => .ok (.choiceify _ h.1 h.2)
theorem rr1 : ∀ {t t' : Ty1}, Same1 κ t t' → RR (Cong Eq κ false) (flattenTy1 re t) (flattenTy1 re t')
  | _, _, .simple h => by simp only [flattenTy1]; exact rr2 h
  | _, _, .openL h => by rw [flattenTy1, open_one]; exact rr1 h
  | _, _, .openR h => by rw [show ∀ u, flattenTy1 re (.simple u) = flattenTy2 re u from fun _ => rfl, open_one]; exact rr1 h
  | _, _, .range i h1 h2 => by
    simp only [flattenTy1]
    exact (rrP h1).bind fun _ _ h1 => (rrP h2).bind fun _ _ h2 => .ok (.range _ _ h1 h2)
  | _, _, .control op h1 h2 => by
    simp only [flattenTy1]
    split
    · exact (rr2 h1).bind fun _ _ h1 => (rr2 h2).bind fun _ _ h2 => rr_control op h1 h2
    · exact .err _
theorem rrP : ∀ {t t' : Ty2}, SameP κ t t' → RR (Cong Eq κ false) (flattenPoint re t) (flattenPoint re t')
  | _, _, .value v => .refl .rfl' _
  | _, _, .typename s h => by
    simp only [flattenPoint]
    exact (rr_name (.inl rfl) h.isEmpty (rr1s h)).bind fun _ _ h => rr_point h
theorem rr1s : ∀ {t t' : List Ty1}, SameL κ t t' → RR (CongL Eq κ false) (flattenTy1s re t) (flattenTy1s re t')
  | _, _, .nil => by simp only [flattenTy1s]; exact .ok (.nil _)
  | _, _, .cons h1 h2 => by
    simp only [flattenTy1s]
    exact (rr1 h1).bind fun _ _ h1 => (rr1s h2).bind fun _ _ h2 => .ok (.cons h1 h2)
theorem rrT : ∀ {t t' : List Ty1}, SameT κ t t' →
    RR (Cong Eq κ false) ((flattenTy1s re t).bind typeOfOptions) ((flattenTy1s re t').bind typeOfOptions)
  | _, _, .options h => (rr1s h).bind fun _ _ h => rr_options h
  | _, _, .openL h => by rw [open_type]; exact rrT h
  | _, _, .openR h => by rw [open_type]; exact rrT h
theorem rrG : ∀ {a : Bool} {g g' : List (List GrpEnt)}, SameG κ a g g' →
    RR (CongL Eq κ a) (flattenGroup re g) (flattenGroup re g') ∧ RR (CongL Eq κ a) (flattenGroupOptions re g) (flattenGroupOptions re g')
  | _, _, _, .nil _ => by
    simp only [flattenGroup, flattenGroupOptions]; exact ⟨.ok (.cons (.choice (.nil _)) (.nil _)), .ok (.nil _)⟩
  | _, _, _, .cons h1 h2 => by
    simp only [flattenGroup, flattenGroupOptions]
    refine ⟨(rrEs h1).bind fun _ _ h1 => (rrG h2).2.bind fun _ _ h3 => ?_,
      (rrEs h1).bind fun _ _ h1 => (rrG h2).2.bind fun _ _ h3 => .ok (.cons (.group h1) h3)⟩
    rw [h2.isEmpty]
    split
    · exact .ok h1
    · exact .ok (.cons (.choice (.cons (.group h1) h3)) (.nil _))
theorem rrEs : ∀ {a : Bool} {g g' : List GrpEnt}, SameEs κ a g g' →
    RR (CongL Eq κ a) (flattenGroupchoice re g) (flattenGroupchoice re g')
  | _, _, _, .nil _ => by simp only [flattenGroupchoice]; exact .ok (.nil _)
  | _, _, _, .cons h1 h2 => by
    simp only [flattenGroupchoice]
    exact (rrE h1).bind fun _ _ h1 => (rrEs h2).bind fun _ _ h2 => .ok (.cons h1 h2)
theorem rrE : ∀ {a : Bool} {e e' : GrpEnt}, SameE κ a e e' →
    RR (Cong Eq κ a) (flattenGroupentry re e) (flattenGroupentry re e')
  | _, _, _, .same o h => by
    simp only [flattenGroupentry]
    refine (rrV h).bind fun _ _ h => ?_
    cases o with
    | none => exact .ok h
    | some o => exact .ok (.occur _ h)
  | _, _, _, .limits o o' hk hl h => by
    simp only [flattenGroupentry]
    exact (rrV h).bind fun _ _ h => .ok (.respell _ _ hk hl h)
theorem rrV : ∀ {a : Bool} {e e' : GrpEntVal}, SameV κ a e e' →
    RR (Cong Eq κ a) (flattenGroupentryVal re e) (flattenGroupentryVal re e')
  | a, _, _, .member _ h => by
    simp only [flattenGroupentryVal]
    exact (rrT h).imp fun _ _ h => by cases a; exact h; exact h.mono
  | _, _, _, .keyed _ c h1 h2 => by
    simp only [flattenGroupentryVal]
    exact (rrK h1).bind fun _ _ h1 => (rrT h2).bind fun _ _ h2 => .ok (.keyValue _ _ h1 h2)
  | _, _, _, .name _ s => .refl .rfl' _
  | _, _, _, .nameL _ s => by rw [groupname_member]; exact .refl .rfl' _
  | _, _, _, .nameR _ s => by rw [groupname_member]; exact .refl .rfl' _
  | _, _, _, .parens h => by
    simp only [flattenGroupentryVal]
    exact (rrG h).1.bind fun _ _ h => .ok (.group h)
  | _, _, _, .newKey c c' hκ hk hv hk' hv' h => by
    simp only [flattenGroupentryVal, keyIs_flatten hk, keyIs_flatten hk']
    obtain ⟨n, hn⟩ := valueIs_flatten hv
    obtain ⟨n', hn'⟩ := valueIs_flatten hv'
    rw [hn, hn']
    exact (rrT h).bind fun _ _ h => .ok (.changeKey _ _ _ _ hκ h)
  | _, _, _, .noKey c hκ hk hv h hi => by
    simp only [flattenGroupentryVal, keyIs_flatten hk]
    obtain ⟨n, hn⟩ := valueIs_flatten hv
    rw [hn]
    have := rrT h
    rw [show ∀ f, (Res.ok n).bind f = f n from fun _ => rfl]
    generalize hr : (flattenTy1s re _).bind typeOfOptions = r at this ⊢
    generalize hr' : (flattenTy1s re _).bind typeOfOptions = r' at this ⊢
    cases this with
    | ok h => exact .ok (.dropKey _ _ hκ h (item_isItem hi hr'))
    | err => exact .err _
    | panic => exact .panic
    | fuel => exact .fuel
theorem rrK : ∀ {k k' : MemberKeyVal}, SameK κ k k' → RR (Cong Eq κ false) (flattenMemberkey re k) (flattenMemberkey re k')
  | _, _, .literal h1 h2 => by rw [keyIs_flatten h1, keyIs_flatten h2]; exact .refl .rfl' _
  | _, _, .type1 h => by simp only [flattenMemberkey]; exact rr1 h
end

/-- Corresponding rule tables. -/
def TableRel (κ : Bool) (t t' : RuleTable) : Prop :=
  All2 (fun p p' => p.1 = p'.1 ∧ p.2.params = p'.2.params ∧ Cong Eq κ false p.2.node p'.2.node) t t'

theorem rr_rule {r r' : Ast.Rule} (h : SameRule κ r r') :
    RR (fun p p' : String × RuleDef => p.1 = p'.1 ∧ p.2.params = p'.2.params ∧ Cong Eq κ false p.2.node p'.2.node)
      (flattenRule re r) (flattenRule re r') := by
  cases h with
  | type s ps h => exact (rrT h).bind fun _ _ h => .ok ⟨rfl, rfl, h⟩
  | group s ps h => exact (rrE h).bind fun _ _ h => .ok ⟨rfl, rfl, h⟩

theorem rr_schema {c c' : Ast.Cddl} (h : SameSchema κ c c') : RR (TableRel κ) (flatten re c) (flatten re c') := by
  induction h with
  | nil => exact .ok .nil
  | cons h _ ih => exact (rr_rule h).bind fun _ _ h => ih.bind fun _ _ h' => .ok (.cons h h')

mutual
/-- Without liberties in keys and occurrences, and with the same names, nodes of the same form are equal. -/
theorem Cong.eq : ∀ {a : Bool} {n n' : Node}, Cong Eq false a n n' → n = n'
  | _, _, _, .literal .. => rfl
  | _, _, _, .prelude .. => rfl
  | _, _, _, .regexp .. => rfl
  | _, _, _, .rule _ hs h => by rw [hs, h.eq]
  | _, _, _, .choice h => by rw [h.eq]
  | _, _, _, .map _ h => by rw [h.eq]
  | _, _, _, .array _ h => by rw [h.eq]
  | _, _, _, .group h => by rw [h.eq]
  | _, _, _, .keyValue _ _ h1 h2 => by rw [h1.eq, h2.eq]
  | _, _, _, .occur _ h => by rw [h.eq]
  | _, _, _, .unwrap _ hs h => by rw [hs, h.eq]
  | _, _, _, .range _ _ h1 h2 => by rw [h1.eq, h2.eq]
  | _, _, _, .ctl _ _ h1 h2 => by rw [h1.eq, h2.eq]
  | _, _, _, .cbor _ h => by rw [h.eq]
  | _, _, _, .choiceify _ hs h => by rw [hs, h.eq]
  | _, _, _, .inline _ h => by rw [h.eq]
theorem CongL.eq : ∀ {a : Bool} {n n' : List Node}, CongL Eq false a n n' → n = n'
  | _, _, _, .nil _ => rfl
  | _, _, _, .cons h1 h2 => by rw [h1.eq, h2.eq]
end

theorem TableRel.eq {t t' : RuleTable} (h : TableRel false t t') : t = t' := by
  induction h with
  | nil => rfl
  | cons h _ ih =>
    rename_i p p' _ _ _
    obtain ⟨s, ⟨ps, n⟩⟩ := p
    obtain ⟨s', ⟨ps', n'⟩⟩ := p'
    obtain ⟨rfl, rfl, h⟩ := h
    cases h.eq
    rw [ih]

end Cddl
