import Verif.Spec.SyntaxError
import Verif.Proofs.Flatten

/-! # The errors of translation -/

namespace Cddl

open Ast (Ty1 Ty2 MemberKeyVal GrpEntVal GrpEnt RuleVal)

variable {re : String → Bool}

theorem Res.bind_eq_err {α β : Type} {r : Res α} {f : α → Res β} {e : Err} :
    r.bind f = .err e ↔ r = .err e ∨ ∃ a, r = .ok a ∧ f a = .err e := by
  cases r <;> simp [Res.bind]

theorem flattenValue_err {v : Ast.Value} {e : Err} : flattenValue v = .err e ↔ BadValue v e := by
  have h127 : (2 : Int) ^ 127 = 170141183460469231731687303715884105728 := by decide
  constructor
  · intro h
    cases v with
    | uint n =>
      simp only [flattenValue, numToI128] at h
      split at h
      · cases h
      · simp only [Res.bind, Res.err.injEq] at h
        subst h
        exact .uint n (by omega)
    | nint i =>
      simp only [flattenValue, numToI128] at h
      split at h
      · cases h
      · simp only [Res.bind, Res.err.injEq] at h
        subst h
        exact .nint i (by omega)
    | _ => cases h
  · intro h
    cases h with
    | uint n hn => simp only [flattenValue, numToI128]; rw [if_neg (by omega)]; rfl
    | nint i hi => simp only [flattenValue, numToI128]; rw [if_neg (by omega)]; rfl

theorem typename_err {s : String} {e : Err} : flattenTypename s = .err e ↔ BadName s e := by
  constructor
  · intro h
    rcases name_cases s with ⟨n, hn⟩ | hu | hu
    · have := preludeTable_flatten _ hn
      dsimp only at this
      rw [this] at h; cases h
    · rw [unsupported_flatten s hu] at h
      cases h
      exact .mk hu
    · rw [user_flatten hu] at h; cases h
  · rintro ⟨h⟩
    exact unsupported_flatten s h

theorem notRule_of_prelude {s : String} {n : Node} (h : (s, n) ∈ preludeTable) : ∀ x l, n ≠ .rule x l := by
  rintro x l rfl
  rcases preludeTable_notRule _ h with ⟨q, hq⟩ | ⟨b, hq⟩ <;> cases hq

theorem nameGeneric_of_notRule {n : Node} {args : Res (List Node)} {b : Bool} (h : ∀ x l, n ≠ .rule x l) :
    nameGeneric n args b = if b = false then .err .genericError else .ok n := by
  cases n <;> first | rfl | exact absurd rfl (h _ _)

theorem ruleGeneric_of_notRule {n : Node} (h : ∀ x l, n ≠ .rule x l) : ruleGeneric (.ok n) = .err .genericError := by
  cases n <;> first | rfl | exact absurd rfl (h _ _)

/-- A name with arguments that does not translate. -/
theorem named_err {s : String} {args : Res (List Node)} {b : Bool} {e : Err} :
    ((flattenTypename s).bind fun node => nameGeneric node args b) = .err e ↔
      BadName s e ∨ ((∃ n, (s, n) ∈ preludeTable) ∧ b = false ∧ e = .genericError) ∨ (UserName s ∧ args = .err e) := by
  rcases name_cases s with ⟨n, hn⟩ | hu | hu
  · have h1 := preludeTable_flatten _ hn
    dsimp only at h1
    have h2 : ¬ BadName s e := fun h => by rw [typename_err.mpr h] at h1; cases h1
    have h3 : ¬ UserName s := fun h => h.1 (List.mem_map.mpr ⟨_, hn, rfl⟩)
    have h4 := notRule_of_prelude hn
    rw [h1]
    simp only [Res.bind, h2, h3, false_or, false_and, or_false]
    have h5 : ∃ n, (s, n) ∈ preludeTable := ⟨n, hn⟩
    simp only [h5, true_and, nameGeneric_of_notRule h4]
    cases b <;> simp [eq_comm]
  · rw [unsupported_flatten s hu]
    have h1 := unsupported_flatten s hu
    have h2 : ¬ ∃ n, (s, n) ∈ preludeTable := by
      rintro ⟨n, hn⟩
      have := preludeTable_flatten _ hn
      dsimp only at this
      rw [this] at h1; cases h1
    have h3 : ¬ UserName s := fun h => h.2 hu
    simp only [Res.bind, Res.err.injEq, h2, h3, false_and, or_false]
    constructor
    · rintro rfl; exact .mk hu
    · rintro ⟨_⟩; rfl
  · rw [user_flatten hu]
    have h2 : ¬ ∃ n, (s, n) ∈ preludeTable := fun ⟨n, hn⟩ => hu.1 (List.mem_map.mpr ⟨_, hn, rfl⟩)
    have h1 : ¬ BadName s e := fun ⟨h⟩ => hu.2 h
    simp only [Res.bind, nameGeneric, h1, h2, hu, true_and, false_and, false_or]
    cases args <;> simp

/-- A name behind `~` or `&` that does not translate. -/
theorem ruleNamed_err {s : String} {args : Res (List Node)} {b : Bool} {e : Err} (ha : args.Returns) :
    ruleGeneric ((flattenTypename s).bind fun node => nameGeneric node args b) = .err e ↔
      e = .genericError ∧ (¬ UserName s ∨ ∃ e', args = .err e') := by
  rcases name_cases s with ⟨n, hn⟩ | hu | hu
  · have h1 := preludeTable_flatten _ hn
    dsimp only at h1
    have h3 : ¬ UserName s := fun h => h.1 (List.mem_map.mpr ⟨_, hn, rfl⟩)
    have h4 := notRule_of_prelude hn
    rw [h1]
    simp only [Res.bind, h3, not_false_eq_true, true_or, and_true, nameGeneric_of_notRule h4]
    cases b with
    | false => simp [ruleGeneric, eq_comm]
    | true => simp [ruleGeneric_of_notRule h4, eq_comm]
  · rw [unsupported_flatten s hu]
    have h3 : ¬ UserName s := fun h => h.2 hu
    simp [Res.bind, ruleGeneric, h3, eq_comm]
  · rw [user_flatten hu]
    simp only [Res.bind, nameGeneric, hu, not_true_eq_false, false_or]
    cases args with
    | ok as => simp [ruleGeneric]
    | err e' => simp [ruleGeneric, eq_comm]
    | panic => exact absurd rfl ha.1
    | fuel => exact absurd rfl ha.2

theorem typeOfOptions_err {os : List Node} {e : Err} :
    typeOfOptions os = .err e ↔ os = [] ∧ e = .unsupported "flatten type with 0 options" := by
  cases os with
  | nil => simp [typeOfOptions, eq_comm]
  | cons a l => cases l <;> simp [typeOfOptions]

theorem knownControl_iff {op : String} : knownControl op = true ↔ IsControl op := by
  simp only [knownControl, Bool.or_eq_true, beq_iff_eq]
  constructor
  · rintro ((((((h | h) | h) | h) | h) | h) | h)
    · exact .inl ⟨.size, h⟩
    · exact .inl ⟨.lt, h⟩
    · exact .inl ⟨.le, h⟩
    · exact .inl ⟨.gt, h⟩
    · exact .inl ⟨.ge, h⟩
    · exact .inr (.inl h)
    · exact .inr (.inr h)
  · rintro (⟨c, rfl⟩ | rfl | rfl)
    · cases c <;> simp [CtlOp.text]
    · simp
    · simp

/-- The errors of an operator on translated operands. -/
inductive CtlBad (re : String → Bool) : String → Node → Node → Err → Prop
  | limit (op : CtlOp) (m n) : ¬ CtlArg op n → CtlBad re op.text m n (.unsupported ("." ++ op.text ++ " limit type"))
  | regexpTarget (m n) : m ≠ .prelude .tstr → CtlBad re "regexp" m n (.structural "bad regexp target type")
  | regexpArg (n) : (∀ p, n ≠ .literal (.text p)) →
      CtlBad re "regexp" (.prelude .tstr) n (.structural "improper regexp type")
  | regexp (p) : re p = false → CtlBad re "regexp" (.prelude .tstr) (.literal (.text p)) (.structural "malformed regexp")
  | cborTarget (m n) : m ≠ .prelude .bstr → CtlBad re "cbor" m n (.structural "bad .cbor target type")

theorem controlOf_bad {op : String} {m n : Node} {e : Err} (h : CtlBad re op m n e) : controlOf re op m n = .err e := by
  cases h with
  | limit c m n h =>
    cases n with
    | literal l =>
      cases l with
      | int i => exact absurd (.int _ _) h
      | _ => cases c <;> rfl
    | rule s as => exact absurd (.rule _ _ _) h
    | range a b i =>
      cases c with
      | size => exact absurd (.range _ _ _) h
      | _ => rfl
    | _ => cases c <;> rfl
  | regexpTarget m n h =>
    unfold controlOf
    simp only [String.reduceEq, if_true, if_false]
  | regexpArg n h =>
    unfold controlOf
    simp only [String.reduceEq, if_true, if_false]
  | regexp p h =>
    unfold controlOf
    simp [h]
  | cborTarget m n h =>
    unfold controlOf
    simp only [String.reduceEq, if_false]

theorem controlOf_err {op : String} {m n : Node} {e : Err} (hk : IsControl op) (h : controlOf re op m n = .err e) :
    CtlBad re op m n e := by
  have key : ∀ e', CtlBad re op m n e' → CtlBad re op m n e := by
    intro e' h'
    rw [controlOf_bad h'] at h
    cases h
    exact h'
  rcases hk with ⟨c, rfl⟩ | rfl | rfl
  · by_cases hc : CtlArg c n
    · rw [controlOf_ctl hc] at h; cases h
    · exact key _ (.limit c m n hc)
  · by_cases hm : m = .prelude .tstr
    · subst hm
      by_cases hn : ∃ p, n = .literal (.text p)
      · obtain ⟨p, rfl⟩ := hn
        cases hp : re p with
        | true => simp [controlOf, hp] at h
        | false => exact key _ (.regexp p hp)
      · exact key _ (.regexpArg n fun p hp => hn ⟨p, hp⟩)
    · exact key _ (.regexpTarget m n hm)
  · by_cases hm : m = .prelude .bstr
    · subst hm; simp [controlOf] at h
    · exact key _ (.cborTarget m n hm)

/-! ## Both directions -/

theorem flattenGroup_err {g : List (List GrpEnt)} {e : Err} :
    flattenGroup re g = .err e ↔ flattenGroupOptions re g = .err e := by
  cases g with
  | nil => simp [flattenGroup, flattenGroupOptions]
  | cons a l =>
    simp only [flattenGroup, flattenGroupOptions, Res.bind_eq_err]
    constructor
    · rintro (h | ⟨x, h1, h | ⟨y, h2, h⟩⟩)
      · exact .inl h
      · exact .inr ⟨x, h1, .inl h⟩
      · split at h <;> cases h
    · rintro (h | ⟨x, h1, h | ⟨y, h2, h⟩⟩)
      · exact .inl h
      · exact .inr ⟨x, h1, .inl h⟩
      · cases h

theorem rangePointCheck_err {n : Node} {e : Err} (h : rangePointCheck n = .err e) :
    (∀ s l, n ≠ .rule s l) ∧ (∀ l, n ≠ .literal l) ∧ e = .structural "bad type on range operator" := by
  cases n <;> simp_all [rangePointCheck, eq_comm]

mutual
theorem bad2_sound {t : Ty2} {e : Err} : Bad2 re t e → flattenTy2 re t = .err e
  | .value h => by rw [flattenTy2]; exact flattenValue_err.mpr h
  | .name h => by rw [flattenTy2]; exact named_err.mpr (.inl h)
  | .preludeArgs h ha => by
      rw [flattenTy2]
      exact named_err.mpr (.inr (.inl ⟨⟨_, h⟩, by simpa using ha, rfl⟩))
  | .args h ha => by rw [flattenTy2]; exact named_err.mpr (.inr (.inr ⟨h, bad1s_sound ha⟩))
  | .parens h => by rw [flattenTy2, bad1s_sound h]; rfl
  | .empty => rfl
  | .map h => by rw [flattenTy2, badGroup_sound h]; rfl
  | .array h => by rw [flattenTy2, badGroup_sound h]; rfl
  | .inline h => by rw [flattenTy2, badGroup_sound h]; rfl
  | .unwrapName h => by
      rw [flattenTy2, (ruleNamed_err (flat1s_returns _)).mpr ⟨rfl, .inl h⟩]; rfl
  | .unwrapArgs h ha => by
      rw [flattenTy2, (ruleNamed_err (flat1s_returns _)).mpr ⟨rfl, .inr ⟨_, bad1s_sound ha⟩⟩]; rfl
  | .choiceifyName h => by
      rw [flattenTy2, (ruleNamed_err (flat1s_returns _)).mpr ⟨rfl, .inl h⟩]; rfl
  | .choiceifyArgs h ha => by
      rw [flattenTy2, (ruleNamed_err (flat1s_returns _)).mpr ⟨rfl, .inr ⟨_, bad1s_sound ha⟩⟩]; rfl
theorem bad1_sound {t : Ty1} {e : Err} : Bad1 re t e → flattenTy1 re t = .err e
  | .simple h => by rw [flattenTy1]; exact bad2_sound h
  | .start h => by rw [flattenTy1, badPoint_sound h]; rfl
  | .stop h h' => by rw [flattenTy1, flatPoint_complete h]; simp only [Res.bind, badPoint_sound h']
  | .operator h => by rw [flattenTy1, if_neg fun h' => h (knownControl_iff.mp h')]
  | .target h h' => by rw [flattenTy1, if_pos (knownControl_iff.mpr h), bad2_sound h']; rfl
  | .arg h h1 h2 => by
      rw [flattenTy1, if_pos (knownControl_iff.mpr h), flat2_complete h1]; simp only [Res.bind, bad2_sound h2]
  | .limit op h1 h2 h => by
      rw [flattenTy1, if_pos (knownControl_iff.mpr (.inl ⟨op, rfl⟩)), flat2_complete h1, flat2_complete h2]
      exact controlOf_bad (.limit op _ _ h)
  | .regexpTarget h1 h2 h => by
      rw [flattenTy1, if_pos (knownControl_iff.mpr (.inr (.inl rfl))), flat2_complete h1, flat2_complete h2]
      exact controlOf_bad (.regexpTarget _ _ h)
  | .regexpArg h1 h2 h => by
      rw [flattenTy1, if_pos (knownControl_iff.mpr (.inr (.inl rfl))), flat2_complete h1, flat2_complete h2]
      exact controlOf_bad (.regexpArg _ h)
  | .regexp h1 h2 h => by
      rw [flattenTy1, if_pos (knownControl_iff.mpr (.inr (.inl rfl))), flat2_complete h1, flat2_complete h2]
      exact controlOf_bad (.regexp _ h)
  | .cborTarget h1 h2 h => by
      rw [flattenTy1, if_pos (knownControl_iff.mpr (.inr (.inr rfl))), flat2_complete h1, flat2_complete h2]
      exact controlOf_bad (re := re) (.cborTarget _ _ h)
theorem badPoint_sound {t : Ty2} {e : Err} : BadPoint re t e → flattenPoint re t = .err e
  | .value h => by rw [flattenPoint, flattenValue_err.mpr h]; rfl
  | .name h => by rw [flattenPoint, named_err.mpr (.inl h)]; rfl
  | .preludeArgs h ha => by
      rw [flattenPoint, named_err.mpr (.inr (.inl ⟨⟨_, h⟩, by simpa using ha, rfl⟩))]; rfl
  | .args h ha => by rw [flattenPoint, named_err.mpr (.inr (.inr ⟨h, bad1s_sound ha⟩))]; rfl
  | .prelude h => by
      have := preludeTable_flatten _ h
      dsimp only at this
      rw [flattenPoint, this]; rfl
  | .other (t := t) h1 h2 => by
      cases t with
      | value v => exact absurd rfl (h1 v)
      | typename s as => exact absurd rfl (h2 s as)
      | _ => rfl
theorem bad1s_sound {t : List Ty1} {e : Err} : Bad1s re t e → flattenTy1s re t = .err e
  | .head h => by rw [flattenTy1s, bad1_sound h]; rfl
  | .tail h h' => by rw [flattenTy1s, flat1_complete h]; simp only [Res.bind, bad1s_sound h']
theorem badGroup_sound {g : List (List GrpEnt)} {e : Err} : BadGroup re g e → flattenGroup re g = .err e
  | .head h => by rw [flattenGroup, badEntries_sound h]; rfl
  | .tail h h' => by
      rw [flattenGroup_err, flattenGroupOptions, flatEntries_complete h]
      simp only [Res.bind, flattenGroup_err.mp (badGroup_sound h')]
theorem badEntries_sound {es : List GrpEnt} {e : Err} : BadEntries re es e → flattenGroupchoice re es = .err e
  | .head h => by rw [flattenGroupchoice, flattenGroupentry, badEntryVal_sound h]; rfl
  | .tail h h' => by rw [flattenGroupchoice, flatEntry_complete h]; simp only [Res.bind, badEntries_sound h']
theorem badEntryVal_sound {v : GrpEntVal} {e : Err} : BadEntryVal re v e → flattenGroupentryVal re v = .err e
  | .member h => by rw [flattenGroupentryVal, bad1s_sound h]; rfl
  | .memberEmpty => rfl
  | .key h => by rw [flattenGroupentryVal, badKey_sound h]; rfl
  | .keyed h h' => by rw [flattenGroupentryVal, flatKey_complete h]; simp only [Res.bind, bad1s_sound h']
  | .keyedEmpty h => by rw [flattenGroupentryVal, flatKey_complete h]; rfl
  | .name h => by rw [flattenGroupentryVal]; exact typename_err.mpr h
  | .parens h => by rw [flattenGroupentryVal, badGroup_sound h]; rfl
theorem badKey_sound {k : MemberKeyVal} {e : Err} : BadKey re k e → flattenMemberkey re k = .err e
  | .type1 h => by rw [flattenMemberkey]; exact bad1_sound h
  | .value h => by rw [flattenMemberkey]; exact flattenValue_err.mpr h
end

mutual
theorem bad2_complete {e : Err} : (t : Ty2) → flattenTy2 re t = .err e → Bad2 re t e
  | .value v => fun h => .value (flattenValue_err.mp h)
  | .typename s as => fun h => by
      rw [flattenTy2] at h
      rcases named_err.mp h with h | ⟨⟨n, hn⟩, ha, rfl⟩ | ⟨hu, ha⟩
      · exact .name h
      · exact .preludeArgs hn (by simpa using ha)
      · exact .args hu (bad1s_complete as ha)
  | .parens t => fun h => by
      rw [flattenTy2] at h
      rcases Res.bind_eq_err.mp h with h | ⟨os, h1, h⟩
      · exact .parens (bad1s_complete t h)
      · obtain ⟨rfl, rfl⟩ := typeOfOptions_err.mp h
        cases flat1s_sound t _ h1
        exact .empty
  | .map g => fun h => by
      rw [flattenTy2] at h
      rcases Res.bind_eq_err.mp h with h | ⟨os, h1, h⟩
      · exact .map (badGroup_complete g h)
      · cases h
  | .array g => fun h => by
      rw [flattenTy2] at h
      rcases Res.bind_eq_err.mp h with h | ⟨os, h1, h⟩
      · exact .array (badGroup_complete g h)
      · cases h
  | .choiceifyInline g => fun h => by
      rw [flattenTy2] at h
      rcases Res.bind_eq_err.mp h with h | ⟨os, h1, h⟩
      · exact .inline (badGroup_complete g h)
      · cases h
  | .unwrap s as => fun h => by
      rw [flattenTy2] at h
      rcases Res.bind_eq_err.mp h with h | ⟨os, h1, h⟩
      · obtain ⟨rfl, hu⟩ := (ruleNamed_err (flat1s_returns _)).mp h
        by_cases hn : UserName s
        · rcases hu with hu | ⟨e', ha⟩
          · exact absurd hn hu
          · exact .unwrapArgs hn (bad1s_complete as ha)
        · exact .unwrapName hn
      · cases h
  | .choiceify s as => fun h => by
      rw [flattenTy2] at h
      rcases Res.bind_eq_err.mp h with h | ⟨os, h1, h⟩
      · obtain ⟨rfl, hu⟩ := (ruleNamed_err (flat1s_returns _)).mp h
        by_cases hn : UserName s
        · rcases hu with hu | ⟨e', ha⟩
          · exact absurd hn hu
          · exact .choiceifyArgs hn (bad1s_complete as ha)
        · exact .choiceifyName hn
      · cases h
theorem bad1_complete {e : Err} : (t : Ty1) → flattenTy1 re t = .err e → Bad1 re t e
  | .simple t => fun h => .simple (bad2_complete t (by rwa [flattenTy1] at h))
  | .range a b i => fun h => by
      rw [flattenTy1] at h
      rcases Res.bind_eq_err.mp h with h | ⟨m, h1, h⟩
      · exact .start (badPoint_complete a h)
      · rcases Res.bind_eq_err.mp h with h | ⟨n, h2, h⟩
        · exact .stop (flatPoint_sound a _ h1) (badPoint_complete b h)
        · cases h
  | .control t a op => fun h => by
      rw [flattenTy1] at h
      by_cases hk : IsControl op
      · rw [if_pos (knownControl_iff.mpr hk)] at h
        rcases Res.bind_eq_err.mp h with h | ⟨m, h1, h⟩
        · exact .target hk (bad2_complete t h)
        · rcases Res.bind_eq_err.mp h with h | ⟨n, h2, h⟩
          · exact .arg hk (flat2_sound t _ h1) (bad2_complete a h)
          · have hb := controlOf_err hk h
            clear h
            cases hb with
            | limit c _ _ hb => exact .limit c (flat2_sound t _ h1) (flat2_sound a _ h2) hb
            | regexpTarget _ _ hb => exact .regexpTarget (flat2_sound t _ h1) (flat2_sound a _ h2) hb
            | regexpArg _ hb => exact .regexpArg (flat2_sound t _ h1) (flat2_sound a _ h2) hb
            | regexp _ hb => exact .regexp (flat2_sound t _ h1) (flat2_sound a _ h2) hb
            | cborTarget _ _ hb => exact .cborTarget (flat2_sound t _ h1) (flat2_sound a _ h2) hb
      · rw [if_neg fun h' => hk (knownControl_iff.mp h')] at h
        cases h
        exact .operator hk
theorem badPoint_complete {e : Err} : (t : Ty2) → flattenPoint re t = .err e → BadPoint re t e
  | .value v => fun h => by
      rw [flattenPoint] at h
      rcases Res.bind_eq_err.mp h with h | ⟨m, h1, h⟩
      · exact .value (flattenValue_err.mp h)
      · obtain ⟨-, hl, -⟩ := rangePointCheck_err h
        obtain ⟨l, rfl, -⟩ := flattenValue_iff.mp h1
        exact absurd rfl (hl _)
  | .typename s as => fun h => by
      rw [flattenPoint] at h
      rcases Res.bind_eq_err.mp h with h | ⟨m, h1, h⟩
      · rcases named_err.mp h with h | ⟨⟨n, hn⟩, ha, rfl⟩ | ⟨hu, ha⟩
        · exact .name h
        · exact .preludeArgs hn (by simpa using ha)
        · exact .args hu (bad1s_complete as ha)
      · obtain ⟨hr, hl, rfl⟩ := rangePointCheck_err h
        rw [← flattenTy2] at h1
        cases flat2_sound _ _ h1 with
        | preludeName hp =>
          rcases preludeTable_notRule _ hp with ⟨q, hq⟩ | ⟨b, hq⟩
          · dsimp only at hq; subst hq; exact .prelude hp
          · dsimp only at hq; subst hq; exact absurd rfl (hl _)
        | name _ _ => exact absurd rfl (hr _ _)
  | .parens _ => fun h => by cases h; exact .other (by simp) (by simp)
  | .map _ => fun h => by cases h; exact .other (by simp) (by simp)
  | .array _ => fun h => by cases h; exact .other (by simp) (by simp)
  | .unwrap _ _ => fun h => by cases h; exact .other (by simp) (by simp)
  | .choiceify _ _ => fun h => by cases h; exact .other (by simp) (by simp)
  | .choiceifyInline _ => fun h => by cases h; exact .other (by simp) (by simp)
theorem bad1s_complete {e : Err} : (t : List Ty1) → flattenTy1s re t = .err e → Bad1s re t e
  | [] => fun h => by cases h
  | t :: ts => fun h => by
      rw [flattenTy1s] at h
      rcases Res.bind_eq_err.mp h with h | ⟨n, h1, h⟩
      · exact .head (bad1_complete t h)
      · rcases Res.bind_eq_err.mp h with h | ⟨ns, h2, h⟩
        · exact .tail (flat1_sound t _ h1) (bad1s_complete ts h)
        · cases h
theorem badGroup_complete {e : Err} : (g : List (List GrpEnt)) → flattenGroup re g = .err e → BadGroup re g e
  | [] => fun h => by cases h
  | g :: gs => fun h => by
      rw [flattenGroup_err, flattenGroupOptions] at h
      rcases Res.bind_eq_err.mp h with h | ⟨n, h1, h⟩
      · exact .head (badEntries_complete g h)
      · rcases Res.bind_eq_err.mp h with h | ⟨ns, h2, h⟩
        · exact .tail (flatEntries_sound g _ h1) (badGroup_complete gs (flattenGroup_err.mpr h))
        · cases h
theorem badEntries_complete {e : Err} : (es : List GrpEnt) → flattenGroupchoice re es = .err e → BadEntries re es e
  | [] => fun h => by cases h
  | .mk o v :: es => fun h => by
      rw [flattenGroupchoice] at h
      rcases Res.bind_eq_err.mp h with h | ⟨n, h1, h⟩
      · rw [flattenGroupentry] at h
        rcases Res.bind_eq_err.mp h with h | ⟨n, h1, h⟩
        · exact .head (badEntryVal_complete v h)
        · cases h
      · rcases Res.bind_eq_err.mp h with h | ⟨ns, h2, h⟩
        · exact .tail (flatEntry_sound _ _ h1) (badEntries_complete es h)
        · cases h
theorem badEntryVal_complete {e : Err} : (v : GrpEntVal) → flattenGroupentryVal re v = .err e → BadEntryVal re v e
  | .member t => fun h => by
      rw [flattenGroupentryVal] at h
      rcases Res.bind_eq_err.mp h with h | ⟨os, h1, h⟩
      · exact .member (bad1s_complete t h)
      · obtain ⟨rfl, rfl⟩ := typeOfOptions_err.mp h
        cases flat1s_sound t _ h1
        exact .memberEmpty
  | .keyed k cut t => fun h => by
      rw [flattenGroupentryVal] at h
      rcases Res.bind_eq_err.mp h with h | ⟨m, h0, h⟩
      · exact .key (badKey_complete k h)
      · rcases Res.bind_eq_err.mp h with h | ⟨n, h1, h⟩
        · rcases Res.bind_eq_err.mp h with h | ⟨os, h1, h⟩
          · exact .keyed (flatKey_sound k _ h0) (bad1s_complete t h)
          · obtain ⟨rfl, rfl⟩ := typeOfOptions_err.mp h
            cases flat1s_sound t _ h1
            exact .keyedEmpty (flatKey_sound k _ h0)
        · cases h
  | .groupname s => fun h => .name (typename_err.mp (by rwa [flattenGroupentryVal] at h))
  | .parens g => fun h => by
      rw [flattenGroupentryVal] at h
      rcases Res.bind_eq_err.mp h with h | ⟨os, h1, h⟩
      · exact .parens (badGroup_complete g h)
      · cases h
theorem badKey_complete {e : Err} : (k : MemberKeyVal) → flattenMemberkey re k = .err e → BadKey re k e
  | .bareword _ => fun h => by cases h
  | .type1 t => fun h => .type1 (bad1_complete t (by rwa [flattenMemberkey] at h))
  | .value v => fun h => .value (flattenValue_err.mp h)
end

theorem flattenRule_err_iff {r : Ast.Rule} {e : Err} : flattenRule re r = .err e ↔ BadRule re r e := by
  obtain ⟨s, ps, v⟩ := r
  constructor
  · intro h
    cases v with
    | assignType t =>
      rcases Res.bind_eq_err.mp h with h | ⟨n, h1, h⟩
      · rcases Res.bind_eq_err.mp h with h | ⟨n, h1, h⟩
        · exact .type (bad1s_complete t h)
        · obtain ⟨rfl, rfl⟩ := typeOfOptions_err.mp h
          cases flat1s_sound t _ h1
          exact .empty
      · cases h
    | assignGroup g =>
      obtain ⟨o, v⟩ := g
      rcases Res.bind_eq_err.mp h with h | ⟨n, h1, h⟩
      · dsimp only at h
        rw [flattenGroupentry] at h
        rcases Res.bind_eq_err.mp h with h | ⟨n, h1, h⟩
        · exact .group (badEntryVal_complete v h)
        · cases h
      · cases h
  · intro h
    cases h with
    | type h => simp [flattenRule, flattenType, bad1s_sound h, Res.bind]
    | empty => rfl
    | group h => simp [flattenRule, flattenGroupentry, badEntryVal_sound h, Res.bind]

theorem collectRes_err {α β : Type} {f : α → Res β} {l : List α} {e : Err} :
    collectRes f l = .err e ↔ ∃ pre a post, l = pre ++ a :: post ∧ (∀ x ∈ pre, ∃ b, f x = .ok b) ∧ f a = .err e := by
  induction l with
  | nil => simp [collectRes]
  | cons x l ih =>
    rw [collectRes, Res.bind_eq_err]
    constructor
    · rintro (h | ⟨b, h1, h⟩)
      · exact ⟨[], x, l, rfl, by simp, h⟩
      · rcases Res.bind_eq_err.mp h with h | ⟨bs, h2, h⟩
        · obtain ⟨pre, a, post, rfl, h2, h3⟩ := ih.mp h
          refine ⟨x :: pre, a, post, rfl, ?_, h3⟩
          intro y hy
          rcases List.mem_cons.mp hy with rfl | hy
          · exact ⟨b, h1⟩
          · exact h2 y hy
        · cases h
    · rintro ⟨pre, a, post, h, h2, h3⟩
      cases pre with
      | nil => cases h; exact .inl h3
      | cons y pre =>
        cases h
        obtain ⟨b, hb⟩ := h2 x (by simp)
        refine .inr ⟨b, hb, Res.bind_eq_err.mpr (.inl (ih.mpr ⟨pre, a, post, rfl, fun z hz => h2 z (by simp [hz]), h3⟩))⟩

theorem flatten_err_iff {l : Ast.Cddl} {e : Err} :
    flatten re l = .err e ↔
      ∃ pre r post, l = pre ++ r :: post ∧ (∀ q ∈ pre, ∃ p, FlatRule re q p) ∧ BadRule re r e := by
  simp only [flatten, collectRes_err, flattenRule_iff, flattenRule_err_iff]

end Cddl
