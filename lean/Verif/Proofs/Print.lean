import Verif.Spec.Print
import Verif.Proofs.ParseRunAll

/-!
# The printed text is a layout of the tree
-/

namespace Cddl

open Ast (Ty Ty1 Ty2 MemberKeyVal GrpEntVal GrpEnt Group GrpChoice RuleVal)

variable {x : ParseExt} {p : PrintExt}

theorem digitChar_spec : ∀ n < 10, Digit (Nat.digitChar n) ∧ digitValue (Nat.digitChar n) = n ∧
    (n ≠ 0 → Nat.digitChar n ≠ '0') := by
  unfold Digit digitValue; decide

theorem hexChar_spec : ∀ n < 16, HexDigit (Nat.digitChar n) ∧ digitValue (Nat.digitChar n) = n ∧
    PlainChar true (Nat.digitChar n) ∧ Nat.digitChar n ≠ '\'' ∧ Nat.digitChar n ≠ '\\' ∧ ¬ HexBlank (Nat.digitChar n) := by
  unfold HexDigit Digit digitValue PlainChar HexBlank Blank; decide

theorem numeral_append (b : Nat) (ds : List Char) (c : Char) :
    numeral b (ds ++ [c]) = numeral b ds * b + digitValue c := by
  simp [numeral]

theorem decText_pos (n : Nat) : n ≠ 0 → ∃ c ds, decText n = c :: ds ∧ Digit c ∧ c ≠ '0' ∧ (∀ d ∈ ds, Digit d) ∧
    numeral 10 (c :: ds) = n := by
  induction n using Nat.strongRecOn with
  | _ n ih =>
    intro h0
    rw [decText]
    split
    · rename_i h
      obtain ⟨h1, h2, h3⟩ := digitChar_spec n h
      exact ⟨_, [], rfl, h1, h3 h0, by simp, by simp [numeral, h2]⟩
    · rename_i h
      obtain ⟨c, ds, e, h1, h2, h3, h4⟩ := ih (n / 10) (by omega) (by omega)
      obtain ⟨h5, h6, -⟩ := digitChar_spec (n % 10) (by omega)
      refine ⟨c, ds ++ [Nat.digitChar (n % 10)], by rw [e]; rfl, h1, h2, ?_, ?_⟩
      · intro d hd
        rcases List.mem_append.1 hd with hd | hd
        · exact h3 d hd
        · rw [List.mem_singleton.1 hd]; exact h5
      · rw [← List.cons_append, numeral_append, h4, h6]
        omega

theorem decText_spec (n : Nat) : UintText (decText n) n := by
  by_cases h : n = 0
  · subst h
    rw [decText, dif_pos (by decide)]
    exact .zero
  · obtain ⟨c, ds, e, h1, h2, h3, h4⟩ := decText_pos n h
    have := UintText.dec h1 h2 h3
    rw [h4, ← e] at this
    exact this

theorem hexText_spec (b : List UInt8) : Quoted true '\'' (hexText b) ∧ HexBytes ((hexText b).filter fun c => ¬ HexBlank c) b := by
  induction b with
  | nil => exact ⟨.nil, .nil⟩
  | cons c b ih =>
    have hc := c.toNat_lt
    obtain ⟨a1, a2, a3, a4, a5, a6⟩ := hexChar_spec (c.toNat / 16) (by omega)
    obtain ⟨b1, b2, b3, b4, b5, b6⟩ := hexChar_spec (c.toNat % 16) (by omega)
    have e : hexText (c :: b) = Nat.digitChar (c.toNat / 16) :: Nat.digitChar (c.toNat % 16) :: hexText b := rfl
    rw [e]
    refine ⟨.plain a3 a4 a5 (.plain b3 b4 b5 ih.1), ?_⟩
    rw [List.filter_cons_of_pos (by simpa using a6), List.filter_cons_of_pos (by simpa using b6)]
    have := HexBytes.cons a1 b1 ih.2
    rw [a2, b2, Nat.div_add_mod] at this
    simpa using this

theorem prValue_spec {v : Ast.Value} (h : OkValue x p v) : ValueText x true (prValue p v) v := by
  cases v with
  | uint n => exact .uint (decText_spec n) h
  | nint i =>
    have := ValueText.nint (x := x) (strict := true) (decText_spec i.natAbs) (by
      obtain ⟨h1, h2⟩ := h
      have h1' : -9223372036854775808 < i := by simpa using h1
      show i.natAbs < 9223372036854775808
      omega)
    have e : -(i.natAbs : Int) = i := by have := h.2; omega
    rw [e] at this
    exact this
  | float f => exact h
  | text s => exact .text h.1 h.2
  | bytes b => exact .hex (hexText_spec b).1 (hexText_spec b).2

theorem prOccur_spec {o : OccurLimit} (h : OkOccur o) : OccurText (prOccur o) o := by
  cases o with
  | optional => exact .optional
  | oneOrMore => exact .plus
  | zeroOrMore => exact .star
  | numbered n m =>
    cases n with
    | zero => exact .upper (decText_spec m) h.2
    | succ n => exact .both (decText_spec _) h.1 (decText_spec m) h.2

theorem ws_space : WS [' '] := .blank (.inl rfl) .nil

theorem space_safe (r : List Char) : Safe (' ' :: r) := blank_safe (.inl (.inl rfl))

theorem comma_safe (r : List Char) : Safe (',' :: r) := safe_punct (by decide) r

theorem space_occur (o : OccurLimit) (r : List Char) : AfterOccur o (' ' :: r) := by
  cases o with
  | optional => trivial
  | oneOrMore => trivial
  | zeroOrMore => exact notHead_cons (by unfold Digit; decide) r
  | numbered _ _ => exact notHead_cons (p := fun c => EAlpha c ∨ Digit c) (by unfold EAlpha Digit; decide) r

mutual
theorem prTy2_spec : ∀ t : Ty2, OkTy2 x p t → GTy2 x true (prTy2 p t) t
  | .value v, h => by
    simp only [OkTy2] at h
    simp only [prTy2]
    exact .value (prValue_spec h)
  | .typename n as, h => by
    simp only [OkTy2] at h
    simp only [prTy2]
    exact .name (prName_spec n as h.1 h.2)
  | .parens t, h => by
    simp only [OkTy2] at h
    simp only [prTy2]
    have := GTy2.parens .nil (prTy_spec t h.1 h.2) .nil
    simpa using this
  | .map g, h => by
    simp only [OkTy2] at h
    simp only [prTy2]
    have := GTy2.map .nil (prGroup_spec g h.1 h.2) .nil
    simpa using this
  | .array g, h => by
    simp only [OkTy2] at h
    simp only [prTy2]
    have := GTy2.array .nil (prGroup_spec g h.1 h.2) .nil
    simpa using this
  | .unwrap n as, h => by
    simp only [OkTy2] at h
    simp only [prTy2]
    have := GTy2.unwrap .nil (prName_spec n as h.1 h.2)
    simpa using this
  | .choiceifyInline g, h => by
    simp only [OkTy2] at h
    simp only [prTy2]
    have := GTy2.inline .nil .nil (prGroup_spec g h.1 h.2) .nil
    simpa using this
  | .choiceify n as, h => by
    simp only [OkTy2] at h
    simp only [prTy2]
    have := GTy2.choiceify .nil (prName_spec n as h.1 h.2)
    simpa using this
theorem prName_spec (n : String) : ∀ as : List Ty1, Ident n.toList → OkTy1s x p as → GName x true (prName p n as) n as
  | [], hn, _ => by
    simp only [prName]
    have := GName.plain (x := x) (strict := true) hn
    simpa using this
  | a :: as, hn, h => by
    simp only [OkTy1s] at h
    simp only [prName]
    have := GName.generic hn .nil (prArgs_spec as a (prTy1 p a) (prTy1_spec a h.1) h.2)
    simpa using this
theorem prArgs_spec : ∀ (as : List Ty1) (a : Ty1) (s : List Char), GTy1 x true s a → OkTy1s x p as →
    GArgs x true (s ++ prArgs p as) (a :: as)
  | [], a, s, h, _ => by
    simp only [prArgs]
    exact .one h .nil
  | b :: as, a, s, h, h' => by
    simp only [OkTy1s] at h'
    simp only [prArgs]
    have := GArgs.cons h .nil ws_space (prArgs_spec as b (prTy1 p b) (prTy1_spec b h'.1) h'.2)
    simpa using this
theorem prTy1_spec : ∀ t : Ty1, OkTy1 x p t → GTy1 x true (prTy1 p t) t
  | .simple t, h => by
    simp only [OkTy1] at h
    simp only [prTy1]
    exact .simple (prTy2_spec t h)
  | .range a b true, h => by
    simp only [OkTy1] at h
    simp only [prTy1]
    have := GTy1.range (prTy2_spec a h.1) ws_space ws_space (prTy2_spec b h.2) fun _ => (space_safe _).ty2 a
    simpa using this
  | .range a b false, h => by
    simp only [OkTy1] at h
    simp only [prTy1]
    have := GTy1.rangeExcl (prTy2_spec a h.1) ws_space ws_space (prTy2_spec b h.2) fun _ => (space_safe _).ty2 a
    simpa using this
  | .control a b op, h => by
    simp only [OkTy1] at h
    simp only [prTy1]
    have := GTy1.control (prTy2_spec a h.1) ws_space h.2.2 ws_space (prTy2_spec b h.2.1)
      fun _ => ⟨(space_safe _).ty2 a, (space_safe _).afterIdent⟩
    simpa using this
theorem prTy_spec : ∀ t : List Ty1, t ≠ [] → OkTy1s x p t → GTy x true (prTy p t) t
  | [], h, _ => absurd rfl h
  | t :: ts, _, h => by
    simp only [OkTy1s] at h
    simp only [prTy]
    exact prAlts_spec ts t _ (prTy1_spec t h.1) h.2
theorem prAlts_spec : ∀ (ts : List Ty1) (t : Ty1) (s : List Char), GTy1 x true s t → OkTy1s x p ts →
    GTy x true (s ++ prAlts p ts) (t :: ts)
  | [], t, s, h, _ => by
    simp only [prAlts, List.append_nil]
    exact .one h
  | u :: ts, t, s, h, h' => by
    simp only [OkTy1s] at h'
    simp only [prAlts]
    have := GTy.cons h ws_space ws_space (prAlts_spec ts u (prTy1 p u) (prTy1_spec u h'.1) h'.2)
    simpa using this
theorem prGroup_spec : ∀ g : List (List GrpEnt), g ≠ [] → OkGroup x p g → GGroup x true (prGroup p g) g
  | [], h, _ => absurd rfl h
  | c :: cs, _, h => by
    simp only [OkGroup] at h
    simp only [prGroup]
    exact prChoices_spec cs c _ (prChoice_spec c h.1) h.2
theorem prChoices_spec : ∀ (cs : List (List GrpEnt)) (c : List GrpEnt) (s : List Char), GChoice x true s c → OkGroup x p cs →
    GGroup x true (s ++ prChoices p cs) (c :: cs)
  | [], c, s, h, _ => by
    simp only [prChoices, List.append_nil]
    exact .one h
  | d :: cs, c, s, h, h' => by
    simp only [OkGroup] at h'
    simp only [prChoices]
    have := GGroup.cons h ws_space ws_space (prChoices_spec cs d (prChoice p d) (prChoice_spec d h'.1) h'.2)
    simpa using this
theorem prChoice_spec : ∀ c : List GrpEnt, OkChoice x p c → GChoice x true (prChoice p c) c
  | [], _ => by
    simp only [prChoice]
    exact .nil
  | .mk o v :: es, h => by
    simp only [OkChoice] at h
    simp only [prChoice]
    have he := prEntry_spec (.mk o v) h.1
    obtain ⟨sv, hv⟩ := he.val
    have := GChoice.cons he (.some .nil ws_space) (prChoice_spec es h.2) fun _ _ => (comma_safe _).val hv
    simpa using this
theorem prEntry_spec : ∀ e : GrpEnt, OkEntry x p e → GEntry x true (prEntry p e) e
  | .mk none v, h => by
    simp only [OkEntry] at h
    simp only [prEntry]
    exact .plain (prVal_spec v h)
  | .mk (some o) v, h => by
    simp only [OkEntry] at h
    simp only [prEntry]
    exact .occur (prOccur_spec h.1) ws_space (prVal_spec v h.2) fun _ => space_occur o _
theorem prVal_spec : ∀ v : GrpEntVal, OkVal x p v → GVal x true (prVal p v) v
  | .member t, h => by
    simp only [OkVal] at h
    simp only [prVal]
    have := GVal.member (strict := true) (prTy_spec t h.1 h.2) .nil fun _ => rfl
    simpa using this
  | .keyed (.bareword s) cut t, h => by
    simp only [OkVal] at h
    obtain ⟨rfl, h1, h2, h3⟩ := h
    simp only [prVal]
    have := GVal.bareword h1 .nil ws_space (prTy_spec t h2 h3)
    simpa using this
  | .keyed (.value v) cut t, h => by
    simp only [OkVal] at h
    obtain ⟨rfl, h1, h2, h3⟩ := h
    simp only [prVal]
    have := GVal.value (prValue_spec h1) .nil ws_space (prTy_spec t h2 h3)
    simpa using this
  | .keyed (.type1 u) true t, h => by
    simp only [OkVal] at h
    obtain ⟨h1, h2, h3⟩ := h
    simp only [prVal]
    have := GVal.cut (prTy1_spec u h1) ws_space ws_space ws_space (prTy_spec t h2 h3)
    simpa using this
  | .keyed (.type1 u) false t, h => by
    simp only [OkVal] at h
    obtain ⟨h1, h2, h3⟩ := h
    simp only [prVal]
    have := GVal.type1 (prTy1_spec u h1) ws_space ws_space (prTy_spec t h2 h3)
    simpa using this
  | .groupname s, h => by simp only [OkVal] at h
  | .parens g, h => by
    simp only [OkVal] at h
    obtain ⟨h1, h2⟩ := h
    simp only [prVal]
    by_cases htl : TypeLike g
    · match g, htl, h2 with
      | [[.mk none (.member t)]], _, h2 =>
        simp only [OkGroup, OkChoice, OkEntry, OkVal] at h2
        have := GVal.comma (strict := true) .nil (prTy_spec t h2.1.1.1 h2.1.1.2) .nil ws_space .nil
        simp only [prGroup, prChoice, prEntry, prVal, prChoices]
        simpa using this
    · have := GVal.parens (strict := true) .nil (prGroup_spec g h1 h2) .nil fun _ => htl
      simpa using this
end

theorem prParams_spec : ∀ (as : List String) (a : String), Ident a.toList → (∀ b ∈ as, Ident b.toList) →
    GParams (a.toList ++ as.flatMap fun b => ',' :: ' ' :: b.toList) (a :: as)
  | [], a, h, _ => by
    have := GParams.one h .nil
    simpa using this
  | b :: as, a, h, h' => by
    have := GParams.cons h .nil ws_space (prParams_spec as b (h' b (by simp)) fun c hc => h' c (by simp [hc]))
    simpa using this

theorem prOptParams_spec (as : List String) (h : ∀ a ∈ as, Ident a.toList) : GOptParams (prParams as) as := by
  cases as with
  | nil => exact .none
  | cons a as =>
    have := GOptParams.some .nil (prParams_spec as a (h a (by simp)) fun c hc => h c (by simp [hc]))
    simpa [prParams] using this

theorem prEntry_head {e : GrpEnt} (h : RuleEntry e) :
    (∃ c s', prEntry p e = c :: s' ∧ (c = '?' ∨ c = '*' ∨ c = '+')) ∨ ∃ g, e = .mk none (.parens g) := by
  match e, h with
  | .mk none (.parens g), _ => exact .inr ⟨g, rfl⟩
  | .mk (some .optional) v, _ => exact .inl ⟨'?', _, by simp only [prEntry, prOccur]; rfl, .inl rfl⟩
  | .mk (some .oneOrMore) v, _ => exact .inl ⟨'+', _, by simp only [prEntry, prOccur]; rfl, .inr (.inr rfl)⟩
  | .mk (some .zeroOrMore) v, _ => exact .inl ⟨'*', _, by simp only [prEntry, prOccur]; rfl, .inr (.inl rfl)⟩
  | .mk (some (.numbered n m)) v, h =>
    have h : n = 0 := h
    subst h
    exact .inl ⟨'*', _, by simp only [prEntry, prOccur]; rfl, .inr (.inl rfl)⟩

/-- The text of a rule without its line ending. -/
theorem prRule_spec {r : Ast.Rule} (h : OkRule x p r) : ∃ s, prRule p r = s ++ ['\n'] ∧ GRule x true s r ∧
    ∀ q, AfterRuleVal r.val ('\n' :: q) := by
  obtain ⟨n, ps, v⟩ := r
  obtain ⟨h1, h2, h3⟩ := h
  have hnl : ∀ q, Safe ('\n' :: q) := fun q => blank_safe (.inl (.inr (.inr (.inr rfl))))
  cases v with
  | assignType t =>
    refine ⟨_, rfl, ?_, fun q => (hnl q).ty _⟩
    have := GRule.mk h1 (prOptParams_spec ps h2) ws_space ws_space (.type (prTy_spec t h3.1 h3.2))
    simpa using this
  | assignGroup e =>
    have he := prEntry_spec e h3.1
    refine ⟨_, rfl, ?_, fun q => ?_⟩
    · have := GRule.mk h1 (prOptParams_spec ps h2) ws_space ws_space (.group he fun _ => prEntry_head h3.2)
      simpa using this
    · cases e with
      | mk o v =>
        obtain ⟨sv, hv⟩ := he.val
        exact (hnl q).val hv

theorem ws_nl : WS ['\n'] := .blank (.inr (.inr (.inr rfl))) .nil

theorem prRules_spec : ∀ (c : Ast.Cddl), c ≠ [] → (∀ r ∈ c, OkRule x p r) → GRules x true (c.flatMap (prRule p)) c
  | [], h, _ => absurd rfl h
  | [r], _, h => by
    obtain ⟨s, e, h1, h2⟩ := prRule_spec (h r (by simp))
    have := GRules.one h1 ws_nl fun _ => h2 []
    simpa [e] using this
  | r :: r' :: c, _, h => by
    obtain ⟨s, e, h1, h2⟩ := prRule_spec (h r (by simp))
    have := GRules.cons h1 ws_nl (prRules_spec (r' :: c) (by simp) fun q hq => h q (by simp [hq])) fun _ => h2 _
    rw [List.flatMap_cons, e]
    exact this

/-- The printed text is a layout of the tree. -/
theorem print_layout {c : Ast.Cddl} (h : OkCddl x p c) : GCddl x true (c.flatMap (prRule p)) c :=
  .mk (w := []) .nil (prRules_spec c h.1 h.2)

end Cddl
