import Verif.Model.Flatten
import Verif.Spec.Syntax
import Verif.Spec.All2

/-! # Flattening computes the translation of Spec/Syntax -/

namespace Cddl

open Ast (Ty1 Ty2 MemberKeyVal GrpEntVal GrpEnt RuleVal)

variable {re : String → Bool}

theorem Res.bind_eq_ok {α β : Type} {r : Res α} {f : α → Res β} {b : β} :
    r.bind f = .ok b ↔ ∃ a, r = .ok a ∧ f a = .ok b := by
  cases r <;> simp

theorem preludeTable_flatten : ∀ p ∈ preludeTable, flattenTypename p.1 = .ok p.2 := by
  simp only [preludeTable, List.forall_mem_cons]
  refine ⟨rfl, rfl, rfl, rfl, rfl, rfl, rfl, rfl, rfl, rfl, rfl, rfl, rfl, rfl, rfl, rfl, rfl, rfl, rfl, rfl, rfl,
    rfl, rfl, rfl, rfl, rfl, rfl, rfl, rfl, rfl, rfl, rfl, ?_⟩
  simp

theorem unsupported_flatten : ∀ s ∈ unsupportedNames,
    flattenTypename s = .err (.unsupported ("prelude type '" ++ s ++ "'")) := by
  simp only [unsupportedNames, List.forall_mem_cons]
  refine ⟨rfl, rfl, rfl, rfl, rfl, rfl, rfl, rfl, ?_⟩
  simp

theorem user_flatten {s : String} (h : UserName s) : flattenTypename s = .ok (.rule s []) := by
  obtain ⟨h1, h2⟩ := h
  simp only [preludeTable, unsupportedNames, List.map_cons, List.map_nil, List.mem_cons, List.not_mem_nil,
    or_false, not_or] at h1 h2
  simp [flattenTypename, h1, h2]

/-- Every name is a supported prelude name, an unsupported one, or free for the author. -/
theorem name_cases (s : String) : (∃ n, (s, n) ∈ preludeTable) ∨ s ∈ unsupportedNames ∨ UserName s := by
  by_cases h1 : s ∈ preludeTable.map Prod.fst
  · obtain ⟨⟨a, n⟩, h, rfl⟩ := List.mem_map.mp h1
    exact .inl ⟨n, h⟩
  · by_cases h2 : s ∈ unsupportedNames
    · exact .inr (.inl h2)
    · exact .inr (.inr ⟨h1, h2⟩)

theorem preludeTable_notRule : ∀ p ∈ preludeTable, (∃ q, p.2 = .prelude q) ∨ ∃ b, p.2 = .literal (.bool b) := by
  simp [preludeTable]

theorem typename_ok {s : String} {n : Node} (h : flattenTypename s = .ok n) :
    ((s, n) ∈ preludeTable) ∨ (UserName s ∧ n = .rule s []) := by
  rcases name_cases s with ⟨m, hm⟩ | hu | hu
  · have := preludeTable_flatten _ hm
    rw [h] at this
    cases this
    exact .inl hm
  · rw [unsupported_flatten s hu] at h; cases h
  · rw [user_flatten hu] at h; cases h; exact .inr ⟨hu, rfl⟩

theorem nameGeneric_ok {s : String} {args : Res (List Node)} {e : Bool} {n : Node}
    (h : ((flattenTypename s).bind fun node => nameGeneric node args e) = .ok n) :
    ((s, n) ∈ preludeTable ∧ e = true) ∨ ∃ ns, UserName s ∧ args = .ok ns ∧ n = .rule s ns := by
  obtain ⟨m, h1, h2⟩ := Res.bind_eq_ok.mp h
  rcases typename_ok h1 with hp | ⟨hu, rfl⟩
  · left
    have hne : nameGeneric m args e = if e = false then .err .genericError else .ok m := by
      rcases preludeTable_notRule _ hp with ⟨q, hq⟩ | ⟨b, hq⟩ <;> (simp only at hq; rw [hq]; rfl)
    rw [hne] at h2
    cases e <;> simp at h2
    subst h2
    exact ⟨hp, rfl⟩
  · right
    obtain ⟨ns, h3, h4⟩ := Res.bind_eq_ok.mp h2
    simp at h4
    exact ⟨ns, hu, h3, h4.symm⟩

theorem nameGeneric_prelude {s : String} {n : Node} {args : Res (List Node)} (h : (s, n) ∈ preludeTable) :
    ((flattenTypename s).bind fun node => nameGeneric node args true) = .ok n := by
  rw [preludeTable_flatten _ h]
  rcases preludeTable_notRule _ h with ⟨q, hq⟩ | ⟨b, hq⟩ <;> (simp only at hq; subst hq; rfl)

theorem nameGeneric_user {s : String} {ns : List Node} {args : Res (List Node)} (e : Bool) (h : UserName s)
    (ha : args = .ok ns) : ((flattenTypename s).bind fun node => nameGeneric node args e) = .ok (.rule s ns) := by
  rw [user_flatten h, ha]; rfl

theorem ruleGeneric_ok {r : Res Node} {p : String × List Node} (h : ruleGeneric r = .ok p) :
    r = .ok (.rule p.1 p.2) := by
  cases r with
  | ok n => cases n <;> simp [ruleGeneric] at h; subst h; rfl
  | _ => simp [ruleGeneric] at h

theorem flattenValue_iff {v : Ast.Value} {n : Node} : flattenValue v = .ok n ↔ ∃ l, n = .literal l ∧ ValueIs v l := by
  constructor
  · intro h
    cases v with
    | text s => cases h; exact ⟨_, rfl, .text s⟩
    | float s => cases h; exact ⟨_, rfl, .float s⟩
    | bytes s => cases h; exact ⟨_, rfl, .bytes s⟩
    | uint u =>
      simp only [flattenValue, numToI128] at h
      split at h
      · rename_i hb; cases h; exact ⟨_, rfl, .uint u (by have := hb.2; omega)⟩
      · cases h
    | nint u =>
      simp only [flattenValue, numToI128] at h
      split at h
      · rename_i hb; cases h; exact ⟨_, rfl, .nint u (by have := hb.1; omega) (by have := hb.2; omega)⟩
      · cases h
  · rintro ⟨l, rfl, h⟩
    cases h with
    | text | float | bytes => rfl
    | uint u h =>
      simp only [flattenValue, numToI128]
      rw [if_pos ⟨by omega, by omega⟩]; rfl
    | nint u h h' =>
      simp only [flattenValue, numToI128]
      rw [if_pos ⟨by omega, by omega⟩]; rfl

theorem typeOfOptions_iff {os : List Node} {n : Node} : typeOfOptions os = .ok n ↔ OneOrChoice os n := by
  match os with
  | [] => simp [typeOfOptions]; nofun
  | [a] =>
    simp [typeOfOptions]
    constructor
    · rintro rfl; exact .one _
    · intro h; cases h; rfl
  | a :: b :: l =>
    simp [typeOfOptions]
    constructor
    · rintro rfl; exact .many a b l
    · intro h; cases h; rfl

theorem occurWrap_iff {o : Option OccurLimit} {m n : Node} : occurWrap o m = n ↔ Occurs o m n := by
  cases o with
  | none => constructor
            · rintro rfl; exact .none _
            · intro h; cases h; rfl
  | some o => constructor
              · rintro rfl; exact .some o _
              · intro h; cases h; rfl

theorem rangePoint_ok {m n : Node} (h : rangePointCheck m = .ok n) :
    m = n ∧ ((∃ l, n = .literal l) ∨ ∃ s as, n = .rule s as) := by
  cases m <;> simp [rangePointCheck] at h <;> subst h <;> simp

theorem flatCtl_ok {op : String} {t a n : Node} (hk : knownControl op = true) (h : controlOf re op t a = .ok n) :
    (∃ c : CtlOp, op = c.text ∧ CtlArg c a ∧ n = .ctl c t a) ∨
    (∃ p, op = "regexp" ∧ t = .prelude .tstr ∧ a = .literal (.text p) ∧ re p = true ∧ n = .ctlRegexp p) ∨
    (op = "cbor" ∧ t = .prelude .bstr ∧ n = .ctlCbor a) := by
  unfold controlOf at h
  split at h
  · rename_i e; subst e
    split at h <;> first | cases h | skip
    all_goals exact .inl ⟨.size, rfl, by constructor, rfl⟩
  split at h
  · rename_i e; subst e
    split at h <;> first | cases h | skip
    all_goals exact .inl ⟨.lt, rfl, by constructor, rfl⟩
  split at h
  · rename_i e; subst e
    split at h <;> first | cases h | skip
    all_goals exact .inl ⟨.le, rfl, by constructor, rfl⟩
  split at h
  · rename_i e; subst e
    split at h <;> first | cases h | skip
    all_goals exact .inl ⟨.gt, rfl, by constructor, rfl⟩
  split at h
  · rename_i e; subst e
    split at h <;> first | cases h | skip
    all_goals exact .inl ⟨.ge, rfl, by constructor, rfl⟩
  split at h
  · rename_i e; subst e
    split at h
    · split at h
      · split at h
        · rename_i hp; cases h; exact .inr (.inl ⟨_, rfl, rfl, rfl, hp, rfl⟩)
        · cases h
      · cases h
    · cases h
  · rename_i h1 h2 h3 h4 h5 h6
    split at h
    · cases h
      refine .inr (.inr ⟨?_, rfl, rfl⟩)
      simpa [knownControl, h1, h2, h3, h4, h5, h6] using hk
    · cases h

/-! ## Soundness -/

theorem flattenGroup_one (g : List GrpEnt) : flattenGroup re [g] = flattenGroupchoice re g := by
  rw [flattenGroup]
  cases h : flattenGroupchoice re g <;> simp [Res.bind, flattenGroupOptions]

theorem flattenGroup_many {g : List (List GrpEnt)} (h : g.length ≠ 1) :
    flattenGroup re g = (flattenGroupOptions re g).bind fun os => .ok [.choice os] := by
  match g, h with
  | [], _ => simp [flattenGroup, flattenGroupOptions, Res.bind]
  | [_], h => simp at h
  | a :: b :: l, _ =>
    rw [flattenGroup, flattenGroupOptions.eq_2 re a]
    cases flattenGroupchoice re a with
    | ok x => simp only [Res.bind]; cases flattenGroupOptions re (b :: l) <;> simp
    | _ => rfl

mutual
theorem flat2_sound : ∀ (t : Ty2) (n : Node), flattenTy2 re t = .ok n → Flat2 re t n
  | .value v, n, h => by
    obtain ⟨l, rfl, hl⟩ := flattenValue_iff.mp (by simpa [flattenTy2] using h)
    exact .value hl
  | .typename s as, n, h => by
    rw [flattenTy2] at h
    rcases nameGeneric_ok h with ⟨hp, he⟩ | ⟨ns, hu, ha, rfl⟩
    · cases as with
      | nil => exact .preludeName hp
      | cons => simp at he
    · exact .name hu (flat1s_sound as ns ha)
  | .parens t, n, h => by
    rw [flattenTy2] at h
    obtain ⟨ns, h1, h2⟩ := Res.bind_eq_ok.mp h
    exact .parens (flat1s_sound t ns h1) (typeOfOptions_iff.mp h2)
  | .map g, n, h => by
    rw [flattenTy2] at h
    obtain ⟨ns, h1, h2⟩ := Res.bind_eq_ok.mp h
    cases h2
    exact .map (flatGroup_sound g ns h1)
  | .array g, n, h => by
    rw [flattenTy2] at h
    obtain ⟨ns, h1, h2⟩ := Res.bind_eq_ok.mp h
    cases h2
    exact .array (flatGroup_sound g ns h1)
  | .unwrap s as, n, h => by
    rw [flattenTy2] at h
    obtain ⟨p, h1, h2⟩ := Res.bind_eq_ok.mp h
    cases h2
    rcases nameGeneric_ok (ruleGeneric_ok h1) with ⟨hp, he⟩ | ⟨ns, hu, ha, hr⟩
    · rcases preludeTable_notRule _ hp with ⟨q, hq⟩ | ⟨b, hq⟩ <;> cases hq
    · cases hr
      exact .unwrap hu (flat1s_sound as _ ha)
  | .choiceifyInline g, n, h => by
    rw [flattenTy2] at h
    obtain ⟨ns, h1, h2⟩ := Res.bind_eq_ok.mp h
    cases h2
    exact .inline (flatGroup_sound g ns h1)
  | .choiceify s as, n, h => by
    rw [flattenTy2] at h
    obtain ⟨p, h1, h2⟩ := Res.bind_eq_ok.mp h
    cases h2
    rcases nameGeneric_ok (ruleGeneric_ok h1) with ⟨hp, he⟩ | ⟨ns, hu, ha, hr⟩
    · rcases preludeTable_notRule _ hp with ⟨q, hq⟩ | ⟨b, hq⟩ <;> cases hq
    · cases hr
      exact .choiceify hu (flat1s_sound as _ ha)
theorem flat1_sound : ∀ (t : Ty1) (n : Node), flattenTy1 re t = .ok n → Flat1 re t n
  | .simple t, n, h => by
    rw [flattenTy1] at h
    exact .simple (flat2_sound t n h)
  | .range a b i, n, h => by
    rw [flattenTy1] at h
    obtain ⟨m, h1, h2⟩ := Res.bind_eq_ok.mp h
    obtain ⟨k, h3, h4⟩ := Res.bind_eq_ok.mp h2
    cases h4
    exact .range (flatPoint_sound a m h1) (flatPoint_sound b k h3)
  | .control t a op, n, h => by
    rw [flattenTy1] at h
    split at h
    · rename_i hk
      obtain ⟨m, h1, h2⟩ := Res.bind_eq_ok.mp h
      obtain ⟨k, h3, h4⟩ := Res.bind_eq_ok.mp h2
      have ht := flat2_sound t m h1
      have ha := flat2_sound a k h3
      rcases flatCtl_ok hk h4 with ⟨c, rfl, hc, rfl⟩ | ⟨p, rfl, rfl, rfl, hp, rfl⟩ | ⟨rfl, rfl, rfl⟩
      · exact .ctl c ht ha hc
      · exact .regexp ht ha hp
      · exact .cbor ht ha
    · cases h
theorem flatPoint_sound : ∀ (t : Ty2) (n : Node), flattenPoint re t = .ok n → FlatPoint re t n
  | .value v, n, h => by
    rw [flattenPoint] at h
    obtain ⟨m, h1, h2⟩ := Res.bind_eq_ok.mp h
    obtain ⟨l, rfl, hl⟩ := flattenValue_iff.mp h1
    cases h2
    exact .value hl
  | .typename s as, n, h => by
    rw [flattenPoint] at h
    obtain ⟨m, h1, h2⟩ := Res.bind_eq_ok.mp h
    obtain ⟨rfl, h3⟩ := rangePoint_ok h2
    rcases nameGeneric_ok h1 with ⟨hp, he⟩ | ⟨ns, hu, ha, rfl⟩
    · cases as with
      | nil =>
        rcases h3 with ⟨l, rfl⟩ | ⟨s', as', rfl⟩
        · exact .literalName hp
        · rcases preludeTable_notRule _ hp with ⟨q, hq⟩ | ⟨b, hq⟩ <;> cases hq
      | cons => simp at he
    · exact .name hu (flat1s_sound as ns ha)
  | .parens t, n, h | .map t, n, h | .array t, n, h | .unwrap t _, n, h | .choiceifyInline t, n, h
  | .choiceify t _, n, h => by simp [flattenPoint] at h
theorem flat1s_sound : ∀ (t : List Ty1) (n : List Node), flattenTy1s re t = .ok n → Flat1s re t n
  | [], n, h => by simp [flattenTy1s] at h; subst h; exact .nil
  | t :: ts, n, h => by
    rw [flattenTy1s] at h
    obtain ⟨m, h1, h2⟩ := Res.bind_eq_ok.mp h
    obtain ⟨k, h3, h4⟩ := Res.bind_eq_ok.mp h2
    cases h4
    exact .cons (flat1_sound t m h1) (flat1s_sound ts k h3)
theorem flatGroup_sound : ∀ (t : List (List GrpEnt)) (n : List Node), flattenGroup re t = .ok n → FlatGroup re t n
  | [], n, h => by
    rw [flattenGroup] at h
    cases h
    exact .many (by simp) .nil
  | [g], n, h => by
    rw [flattenGroup_one] at h
    exact .one (flatEntries_sound g n h)
  | a :: b :: l, n, h => by
    rw [flattenGroup_many (by simp)] at h
    obtain ⟨m, h1, h2⟩ := Res.bind_eq_ok.mp h
    cases h2
    exact .many (by simp) (flatOptions_sound (a :: b :: l) m h1)
theorem flatOptions_sound : ∀ (t : List (List GrpEnt)) (n : List Node), flattenGroupOptions re t = .ok n →
    FlatOptions re t n
  | [], n, h => by simp [flattenGroupOptions] at h; subst h; exact .nil
  | t :: ts, n, h => by
    rw [flattenGroupOptions] at h
    obtain ⟨m, h1, h2⟩ := Res.bind_eq_ok.mp h
    obtain ⟨k, h3, h4⟩ := Res.bind_eq_ok.mp h2
    cases h4
    exact .cons (flatEntries_sound t m h1) (flatOptions_sound ts k h3)
theorem flatEntries_sound : ∀ (t : List GrpEnt) (n : List Node), flattenGroupchoice re t = .ok n →
    FlatEntries re t n
  | [], n, h => by simp [flattenGroupchoice] at h; subst h; exact .nil
  | t :: ts, n, h => by
    rw [flattenGroupchoice] at h
    obtain ⟨m, h1, h2⟩ := Res.bind_eq_ok.mp h
    obtain ⟨k, h3, h4⟩ := Res.bind_eq_ok.mp h2
    cases h4
    exact .cons (flatEntry_sound t m h1) (flatEntries_sound ts k h3)
theorem flatEntry_sound : ∀ (t : GrpEnt) (n : Node), flattenGroupentry re t = .ok n → FlatEntry re t n
  | .mk o v, n, h => by
    rw [flattenGroupentry] at h
    obtain ⟨m, h1, h2⟩ := Res.bind_eq_ok.mp h
    cases h2
    exact .mk (flatEntryVal_sound v m h1) (occurWrap_iff.mp rfl)
theorem flatEntryVal_sound : ∀ (t : GrpEntVal) (n : Node), flattenGroupentryVal re t = .ok n → FlatEntryVal re t n
  | .member t, n, h => by
    rw [flattenGroupentryVal] at h
    obtain ⟨ns, h1, h2⟩ := Res.bind_eq_ok.mp h
    exact .member (flat1s_sound t ns h1) (typeOfOptions_iff.mp h2)
  | .keyed k cut t, n, h => by
    rw [flattenGroupentryVal] at h
    obtain ⟨m, h1, h2⟩ := Res.bind_eq_ok.mp h
    obtain ⟨x, h3, h4⟩ := Res.bind_eq_ok.mp h2
    obtain ⟨ns, h5, h6⟩ := Res.bind_eq_ok.mp h3
    cases h4
    exact .keyed (flatKey_sound k m h1) (flat1s_sound t ns h5) (typeOfOptions_iff.mp h6)
  | .groupname s, n, h => by
    rw [flattenGroupentryVal] at h
    rcases typename_ok h with hp | ⟨hu, rfl⟩
    · exact .preludeName hp
    · exact .name hu
  | .parens g, n, h => by
    rw [flattenGroupentryVal] at h
    obtain ⟨ns, h1, h2⟩ := Res.bind_eq_ok.mp h
    cases h2
    exact .parens (flatGroup_sound g ns h1)
theorem flatKey_sound : ∀ (t : MemberKeyVal) (n : Node), flattenMemberkey re t = .ok n → FlatKey re t n
  | .bareword s, n, h => by simp [flattenMemberkey] at h; subst h; exact .bareword s
  | .type1 t, n, h => by
    rw [flattenMemberkey] at h
    exact .type1 (flat1_sound t n h)
  | .value v, n, h => by
    obtain ⟨l, rfl, hl⟩ := flattenValue_iff.mp (by simpa [flattenMemberkey] using h)
    exact .value hl
end

/-! ## Completeness -/

theorem control_known (c : CtlOp) : knownControl c.text = true := by cases c <;> rfl

theorem controlOf_ctl {c : CtlOp} {t a : Node} (h : CtlArg c a) : controlOf re c.text t a = .ok (.ctl c t a) := by
  cases h with
  | int op i => cases c <;> rfl
  | rule op s as => cases c <;> rfl
  | range a b i => rfl

mutual
theorem flat2_complete : ∀ {t : Ty2} {n : Node}, Flat2 re t n → flattenTy2 re t = .ok n
  | _, _, .value h => by rw [flattenTy2]; exact flattenValue_iff.mpr ⟨_, rfl, h⟩
  | _, _, .preludeName h => by rw [flattenTy2]; exact nameGeneric_prelude h
  | _, _, .name h has => by rw [flattenTy2]; exact nameGeneric_user _ h (flat1s_complete has)
  | _, _, .parens h ho => by rw [flattenTy2, flat1s_complete h]; exact typeOfOptions_iff.mpr ho
  | _, _, .map h => by rw [flattenTy2, flatGroup_complete h]; rfl
  | _, _, .array h => by rw [flattenTy2, flatGroup_complete h]; rfl
  | _, _, .unwrap h has => by rw [flattenTy2, nameGeneric_user _ h (flat1s_complete has)]; rfl
  | _, _, .choiceify h has => by rw [flattenTy2, nameGeneric_user _ h (flat1s_complete has)]; rfl
  | _, _, .inline h => by rw [flattenTy2, flatGroup_complete h]; rfl
theorem flat1_complete : ∀ {t : Ty1} {n : Node}, Flat1 re t n → flattenTy1 re t = .ok n
  | _, _, .simple h => by rw [flattenTy1]; exact flat2_complete h
  | _, _, .range ha hb => by rw [flattenTy1, flatPoint_complete ha, flatPoint_complete hb]; rfl
  | _, _, .ctl op ht ha hc => by
    rw [flattenTy1, if_pos (control_known op), flat2_complete ht, flat2_complete ha]
    exact controlOf_ctl hc
  | _, _, .regexp ht ha hp => by
    rw [flattenTy1, if_pos (by rfl), flat2_complete ht, flat2_complete ha]
    simp [controlOf, hp]
  | _, _, .cbor ht ha => by
    rw [flattenTy1, if_pos (by rfl), flat2_complete ht, flat2_complete ha]
    rfl
theorem flatPoint_complete : ∀ {t : Ty2} {n : Node}, FlatPoint re t n → flattenPoint re t = .ok n
  | _, _, .value h => by rw [flattenPoint, flattenValue_iff.mpr ⟨_, rfl, h⟩]; rfl
  | _, _, .literalName h => by
    rw [flattenPoint]
    have := nameGeneric_prelude (args := flattenTy1s re []) h
    simp only [List.isEmpty_nil] at this ⊢
    rw [this]; rfl
  | _, _, .name h has => by rw [flattenPoint, nameGeneric_user _ h (flat1s_complete has)]; rfl
theorem flat1s_complete : ∀ {t : List Ty1} {n : List Node}, Flat1s re t n → flattenTy1s re t = .ok n
  | _, _, .nil => by rw [flattenTy1s]
  | _, _, .cons h hs => by rw [flattenTy1s, flat1_complete h, flat1s_complete hs]; rfl
theorem flatGroup_complete : ∀ {t : List (List GrpEnt)} {n : List Node}, FlatGroup re t n →
    flattenGroup re t = .ok n
  | _, _, .one h => by rw [flattenGroup_one]; exact flatEntries_complete h
  | _, _, .many hl h => by rw [flattenGroup_many hl, flatOptions_complete h]; rfl
theorem flatOptions_complete : ∀ {t : List (List GrpEnt)} {n : List Node}, FlatOptions re t n →
    flattenGroupOptions re t = .ok n
  | _, _, .nil => by rw [flattenGroupOptions]
  | _, _, .cons h hs => by rw [flattenGroupOptions, flatEntries_complete h, flatOptions_complete hs]; rfl
theorem flatEntries_complete : ∀ {t : List GrpEnt} {n : List Node}, FlatEntries re t n →
    flattenGroupchoice re t = .ok n
  | _, _, .nil => by rw [flattenGroupchoice]
  | _, _, .cons h hs => by rw [flattenGroupchoice, flatEntry_complete h, flatEntries_complete hs]; rfl
theorem flatEntry_complete : ∀ {t : GrpEnt} {n : Node}, FlatEntry re t n → flattenGroupentry re t = .ok n
  | _, _, .mk h ho => by rw [flattenGroupentry, flatEntryVal_complete h, ← occurWrap_iff.mpr ho]; rfl
theorem flatEntryVal_complete : ∀ {t : GrpEntVal} {n : Node}, FlatEntryVal re t n →
    flattenGroupentryVal re t = .ok n
  | _, _, .member h ho => by rw [flattenGroupentryVal, flat1s_complete h]; exact typeOfOptions_iff.mpr ho
  | _, _, .keyed hk h ho => by
    rw [flattenGroupentryVal, flatKey_complete hk, flat1s_complete h]
    simp only [Res.bind]
    rw [typeOfOptions_iff.mpr ho]
  | _, _, .preludeName h => by rw [flattenGroupentryVal]; exact preludeTable_flatten _ h
  | _, _, .name h => by rw [flattenGroupentryVal]; exact user_flatten h
  | _, _, .parens h => by rw [flattenGroupentryVal, flatGroup_complete h]; rfl
theorem flatKey_complete : ∀ {t : MemberKeyVal} {n : Node}, FlatKey re t n → flattenMemberkey re t = .ok n
  | _, _, .bareword s => by rw [flattenMemberkey]
  | _, _, .type1 h => by rw [flattenMemberkey]; exact flat1_complete h
  | _, _, .value h => by rw [flattenMemberkey]; exact flattenValue_iff.mpr ⟨_, rfl, h⟩
end

theorem flattenRule_iff {r : Ast.Rule} {p : String × RuleDef} : flattenRule re r = .ok p ↔ FlatRule re r p := by
  obtain ⟨s, ps, v⟩ := r
  constructor
  · intro h
    cases v with
    | assignType t =>
      obtain ⟨n, h1, h2⟩ := Res.bind_eq_ok.mp h
      obtain ⟨ns, h3, h4⟩ := Res.bind_eq_ok.mp h1
      cases h2
      exact .type (flat1s_sound t ns h3) (typeOfOptions_iff.mp h4)
    | assignGroup g =>
      obtain ⟨n, h1, h2⟩ := Res.bind_eq_ok.mp h
      cases h2
      exact .group (flatEntry_sound g n h1)
  · intro h
    cases h with
    | type h ho => simp [flattenRule, flattenType, flat1s_complete h, typeOfOptions_iff.mpr ho]
    | group h => simp [flattenRule, flatEntry_complete h]

/-! ## Outcomes -/

/-- The outcome is `Ok` or `Err`. -/
def Res.Returns {α : Type} (r : Res α) : Prop := r ≠ .panic ∧ r ≠ .fuel

theorem Res.Returns.ok {α : Type} (a : α) : (Res.ok a).Returns := by simp [Res.Returns]
theorem Res.Returns.err {α : Type} (e : Err) : (Res.err e : Res α).Returns := by simp [Res.Returns]

theorem Res.Returns.bind {α β : Type} {r : Res α} {f : α → Res β} (h : r.Returns) (hf : ∀ a, (f a).Returns) :
    (r.bind f).Returns := by
  cases r with
  | ok a => exact hf a
  | err e => exact .err e
  | panic => exact absurd rfl h.1
  | fuel => exact absurd rfl h.2

theorem flattenValue_returns (v : Ast.Value) : (flattenValue v).Returns := by
  cases v <;> first
    | exact .ok _
    | (simp only [flattenValue, numToI128]; split <;> first | exact .ok _ | exact .err _)

theorem flattenTypename_returns (s : String) : (flattenTypename s).Returns := by
  rcases name_cases s with ⟨n, h⟩ | h | h
  · rw [preludeTable_flatten _ h]; exact .ok _
  · rw [unsupported_flatten _ h]; exact .err _
  · rw [user_flatten h]; exact .ok _

theorem typeOfOptions_returns (os : List Node) : (typeOfOptions os).Returns := by
  match os with
  | [] => exact .err _
  | [a] => exact .ok _
  | a :: b :: l => simp [typeOfOptions, Res.Returns]

theorem nameGeneric_returns (n : Node) {args : Res (List Node)} (h : args.Returns) (e : Bool) :
    (nameGeneric n args e).Returns := by
  unfold nameGeneric
  split
  · exact h.bind fun _ => .ok _
  · split <;> first | exact .ok _ | exact .err _

theorem ruleGeneric_returns {r : Res Node} (h : r.Returns) : (ruleGeneric r).Returns := by
  unfold ruleGeneric
  split
  · exact .ok _
  · exact absurd rfl h.1
  · exact absurd rfl h.2
  · exact .err _

theorem rangePointCheck_returns (n : Node) : (rangePointCheck n).Returns := by
  cases n <;> simp [rangePointCheck, Res.Returns]

theorem controlOf_returns (op : String) (t a : Node) : (controlOf re op t a).Returns := by
  unfold controlOf
  repeat' split
  all_goals first | exact .ok _ | exact .err _

mutual
theorem flat2_returns : ∀ t : Ty2, (flattenTy2 re t).Returns
  | .value v => by rw [flattenTy2]; exact flattenValue_returns v
  | .typename s as => by
    rw [flattenTy2]; exact (flattenTypename_returns s).bind fun n => nameGeneric_returns n (flat1s_returns as) _
  | .parens t => by rw [flattenTy2]; exact (flat1s_returns t).bind typeOfOptions_returns
  | .map g => by rw [flattenTy2]; exact (flatGroup_returns g).bind fun _ => .ok _
  | .array g => by rw [flattenTy2]; exact (flatGroup_returns g).bind fun _ => .ok _
  | .unwrap s as => by
    rw [flattenTy2]
    exact (ruleGeneric_returns ((flattenTypename_returns s).bind fun n =>
      nameGeneric_returns n (flat1s_returns as) _)).bind fun _ => .ok _
  | .choiceifyInline g => by rw [flattenTy2]; exact (flatGroup_returns g).bind fun _ => .ok _
  | .choiceify s as => by
    rw [flattenTy2]
    exact (ruleGeneric_returns ((flattenTypename_returns s).bind fun n =>
      nameGeneric_returns n (flat1s_returns as) _)).bind fun _ => .ok _
theorem flat1_returns : ∀ t : Ty1, (flattenTy1 re t).Returns
  | .simple t => by rw [flattenTy1]; exact flat2_returns t
  | .range a b i => by
    rw [flattenTy1]; exact (flatPoint_returns a).bind fun _ => (flatPoint_returns b).bind fun _ => .ok _
  | .control t a op => by
    rw [flattenTy1]
    split
    · exact (flat2_returns t).bind fun _ => (flat2_returns a).bind fun _ => controlOf_returns _ _ _
    · exact .err _
theorem flatPoint_returns : ∀ t : Ty2, (flattenPoint re t).Returns
  | .value v => by rw [flattenPoint]; exact (flattenValue_returns v).bind rangePointCheck_returns
  | .typename s as => by
    rw [flattenPoint]
    exact ((flattenTypename_returns s).bind fun n => nameGeneric_returns n (flat1s_returns as) _).bind
      rangePointCheck_returns
  | .parens t | .map t | .array t | .unwrap t _ | .choiceifyInline t | .choiceify t _ => by
    simp [flattenPoint, Res.Returns]
theorem flat1s_returns : ∀ t : List Ty1, (flattenTy1s re t).Returns
  | [] => by rw [flattenTy1s]; exact .ok _
  | t :: ts => by
    rw [flattenTy1s]; exact (flat1_returns t).bind fun _ => (flat1s_returns ts).bind fun _ => .ok _
theorem flatGroup_returns : ∀ t : List (List GrpEnt), (flattenGroup re t).Returns
  | [] => by rw [flattenGroup]; exact .ok _
  | [g] => by rw [flattenGroup_one]; exact flatEntries_returns g
  | a :: b :: l => by
    rw [flattenGroup_many (by simp)]
    exact (flatOptions_returns (a :: b :: l)).bind fun _ => .ok _
theorem flatOptions_returns : ∀ t : List (List GrpEnt), (flattenGroupOptions re t).Returns
  | [] => by rw [flattenGroupOptions]; exact .ok _
  | t :: ts => by
    rw [flattenGroupOptions]
    exact (flatEntries_returns t).bind fun _ => (flatOptions_returns ts).bind fun _ => .ok _
theorem flatEntries_returns : ∀ t : List GrpEnt, (flattenGroupchoice re t).Returns
  | [] => by rw [flattenGroupchoice]; exact .ok _
  | t :: ts => by
    rw [flattenGroupchoice]
    exact (flatEntry_returns t).bind fun _ => (flatEntries_returns ts).bind fun _ => .ok _
theorem flatEntry_returns : ∀ t : GrpEnt, (flattenGroupentry re t).Returns
  | .mk o v => by rw [flattenGroupentry]; exact (flatEntryVal_returns v).bind fun _ => .ok _
theorem flatEntryVal_returns : ∀ t : GrpEntVal, (flattenGroupentryVal re t).Returns
  | .member t => by rw [flattenGroupentryVal]; exact (flat1s_returns t).bind typeOfOptions_returns
  | .keyed k cut t => by
    rw [flattenGroupentryVal]
    exact (flatKey_returns k).bind fun _ => ((flat1s_returns t).bind typeOfOptions_returns).bind fun _ => .ok _
  | .groupname s => by rw [flattenGroupentryVal]; exact flattenTypename_returns s
  | .parens g => by rw [flattenGroupentryVal]; exact (flatGroup_returns g).bind fun _ => .ok _
theorem flatKey_returns : ∀ t : MemberKeyVal, (flattenMemberkey re t).Returns
  | .bareword s => by rw [flattenMemberkey]; exact .ok _
  | .type1 t => by rw [flattenMemberkey]; exact flat1_returns t
  | .value v => by rw [flattenMemberkey]; exact flattenValue_returns v
end

theorem flattenRule_returns (r : Ast.Rule) : (flattenRule re r).Returns := by
  unfold flattenRule
  refine Res.Returns.bind ?_ fun _ => .ok _
  split
  · exact (flat1s_returns _).bind typeOfOptions_returns
  · exact flatEntry_returns _

theorem collectRes_returns {α β : Type} {f : α → Res β} (h : ∀ a, (f a).Returns) (l : List α) :
    (collectRes f l).Returns := by
  induction l with
  | nil => exact .ok _
  | cons a l ih => exact (h a).bind fun _ => ih.bind fun _ => .ok _

theorem collectRes_ok {α β : Type} {f : α → Res β} {l : List α} {bs : List β} :
    collectRes f l = .ok bs ↔ All2 (fun a b => f a = .ok b) l bs := by
  induction l generalizing bs with
  | nil =>
    simp only [collectRes]
    constructor
    · intro h; cases h; exact .nil
    · intro h; cases h; rfl
  | cons a l ih =>
    simp only [collectRes]
    constructor
    · intro h
      obtain ⟨b, h1, h2⟩ := Res.bind_eq_ok.mp h
      obtain ⟨bs', h3, h4⟩ := Res.bind_eq_ok.mp h2
      cases h4
      exact .cons h1 (ih.mp h3)
    · intro h
      cases h with
      | cons h1 h2 => rw [h1, Res.bind, ih.mpr h2]; rfl

end Cddl
