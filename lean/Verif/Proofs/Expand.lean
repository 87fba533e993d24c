import Verif.Model.Api
import Verif.Spec.Expand
import Verif.Proofs.WriteOut

/-! # Schemas without generic rules are the schemas written out -/

namespace Cddl

theorem optAll_all2 {α β : Type} {f : α → Option β} : ∀ {l : List α} {l' : List β}, optAll f l = some l' →
    All2 (fun a b => f a = some b) l l'
  | [], _, h => by cases h; exact .nil
  | a :: l, l', h => by
    simp only [optAll, Option.bind_eq_some_iff, Option.map_eq_some_iff] at h
    obtain ⟨b, h1, l2, h2, rfl⟩ := h
    exact .cons h1 (optAll_all2 h2)

variable {t : RuleTable} {C D : List String}

/-- Names that are kept. -/
def RuleTable.Kept (t : RuleTable) (C D : List String) (s : String) (u : NameUse) : Prop :=
  t.find s = none ∨ ∃ d, t.find s = some d ∧ d.params = [] ∧ match u with
    | .plain => True
    | .choices => s ∈ C
    | .contents => s ∈ D

theorem keeps_choices {s : String} (h : t.keeps C s = true) : t.Kept C D s .choices := by
  unfold RuleTable.keeps at h
  split at h
  · exact .inl ‹_›
  · rename_i d hd
    simp only [Bool.and_eq_true, List.isEmpty_iff, List.contains_iff_mem] at h
    exact .inr ⟨d, hd, h.1, h.2⟩

theorem keeps_contents {s : String} (h : t.keeps D s = true) : t.Kept C D s .contents := by
  unfold RuleTable.keeps at h
  split at h
  · exact .inl ‹_›
  · rename_i d hd
    simp only [Bool.and_eq_true, List.isEmpty_iff, List.contains_iff_mem] at h
    exact .inr ⟨d, hd, h.1, h.2⟩

theorem expand_noNames : ∀ (k : Nat) (ps : List (String × Node)) (F : List String) (n n' : Node),
    t.expandNode C D k ps F n = some n' → n.names = [] → n' = n
  | 0, _, _, _, _, h, _ => by cases h
  | k + 1, ps, F, n, n', h, hn => by
    have ih := expand_noNames k ps F
    have all : ∀ {l l' : List Node}, Node.namesL l = [] → optAll (t.expandNode C D k ps F) l = some l' → l' = l := by
      intro l l' hl ho
      have := optAll_all2 ho
      clear ho
      induction this with
      | nil => rfl
      | cons h1 _ ih2 =>
        simp only [Node.namesL, List.append_eq_nil_iff] at hl
        rw [ih _ _ h1 hl.1, ih2 hl.2]
    cases n
    case literal => cases h; rfl
    case prelude => cases h; rfl
    case ctlRegexp => cases h; rfl
    case rule => simp [Node.names] at hn
    case unwrap => simp [Node.names] at hn
    case choiceify => simp [Node.names] at hn
    case choice l =>
      simp only [RuleTable.expandNode, Option.map_eq_some_iff] at h
      obtain ⟨l', h1, rfl⟩ := h
      rw [all (by simpa only [Node.names] using hn) h1]
    case map l =>
      simp only [RuleTable.expandNode, Option.map_eq_some_iff] at h
      obtain ⟨l', h1, rfl⟩ := h
      rw [all (by simpa only [Node.names] using hn) h1]
    case array l =>
      simp only [RuleTable.expandNode, Option.map_eq_some_iff] at h
      obtain ⟨l', h1, rfl⟩ := h
      rw [all (by simpa only [Node.names] using hn) h1]
    case group l =>
      simp only [RuleTable.expandNode, Option.map_eq_some_iff] at h
      obtain ⟨l', h1, rfl⟩ := h
      rw [all (by simpa only [Node.names] using hn) h1]
    case choiceifyInline l =>
      simp only [RuleTable.expandNode] at h
      split at h
      · simp only [Option.map_eq_some_iff] at h
        obtain ⟨l', h1, rfl⟩ := h
        rw [all (by simpa only [Node.names] using hn) h1]
      · cases h
    case keyValue key v x =>
      simp only [Node.names, List.append_eq_nil_iff] at hn
      simp only [RuleTable.expandNode, keyOut, hn.1, List.isEmpty_nil, if_true, Option.bind_some,
        Option.map_eq_some_iff] at h
      obtain ⟨v', h1, rfl⟩ := h
      rw [ih _ _ h1 hn.2]
    case occur o n =>
      simp only [RuleTable.expandNode, Option.map_eq_some_iff] at h
      obtain ⟨v', h1, rfl⟩ := h
      rw [ih _ _ h1 (by simpa only [Node.names] using hn)]
    case ctlCbor n =>
      simp only [RuleTable.expandNode, Option.map_eq_some_iff] at h
      obtain ⟨v', h1, rfl⟩ := h
      rw [ih _ _ h1 (by simpa only [Node.names] using hn)]
    case range a b i =>
      simp only [Node.names, List.append_eq_nil_iff] at hn
      simp only [RuleTable.expandNode, Option.bind_eq_some_iff, Option.map_eq_some_iff] at h
      obtain ⟨a', h1, b', h2, rfl⟩ := h
      rw [ih _ _ h1 hn.1, ih _ _ h2 hn.2]
    case ctl o a b =>
      simp only [Node.names, List.append_eq_nil_iff] at hn
      simp only [RuleTable.expandNode, Option.bind_eq_some_iff, Option.map_eq_some_iff] at h
      obtain ⟨a', h1, b', h2, rfl⟩ := h
      rw [ih _ _ h1 hn.1, ih _ _ h2 hn.2]

theorem keyArg_out {k : Nat} {ps : List (String × Node)} {F : List String} {a a' : Node} (h : keyArg ps F a = true)
    (he : t.expandNode C D k ps F a = some a') : KeyArg ps F a a' := by
  have other : a.names.isEmpty = true → (∀ l, a ≠ .literal l) → KeyArg ps F a a' := fun h1 h2 => by
    have h1 : a.names = [] := by simpa using h1
    exact .inl ⟨h1, expand_noNames k ps F a a' he h1, h2⟩
  cases a <;> try exact other h (by simp)
  case literal => cases h
  case rule s as =>
    simp only [keyArg, Bool.and_eq_true, List.contains_iff_mem, Option.isSome_iff_exists] at h
    obtain ⟨h1, b, h2⟩ := h
    cases k with
    | zero => cases he
    | succ k =>
      simp only [RuleTable.expandNode, h2] at he
      cases he
      exact .inr ⟨s, as, rfl, h1, h2⟩

theorem keyOut_out {ps : List (String × Node)} {F : List String} {k k' : Node} (h : keyOut ps F k = some k') :
    KeyOut ps F k k' := by
  unfold keyOut at h
  split at h
  · rename_i hk
    cases h
    exact .inl ⟨by simpa using hk, rfl⟩
  · split at h
    · rename_i s as _
      split at h
      · rename_i hF
        exact .inr ⟨s, as, rfl, by simpa using hF, h⟩
      · cases h
    · cases h

theorem expand_rule_kept {k : Nat} {s : String} {as : List Node} {n' : Node} {ps F}
    (hg : argFor ps s = none) {u : NameUse} (hk : t.Kept C D s u)
    (h : t.expandNode C D (k + 1) ps F (.rule s as) = some n') :
    ∃ as', n' = .rule s as' ∧ optAll (t.expandNode C D k ps F) as = some as' := by
  simp only [RuleTable.expandNode, hg, Option.bind_eq_some_iff] at h
  obtain ⟨as', h1, h2⟩ := h
  rcases hk with h3 | ⟨d, h3, h4, _⟩
  · rw [h3] at h2; cases h2; exact ⟨as', rfl, h1⟩
  · rw [h3] at h2
    simp only [h4, List.isEmpty_nil, if_true] at h2
    cases h2; exact ⟨as', rfl, h1⟩

theorem expand_group {E : Env} {k : Nat} {ps : List (String × Node)} {F : List String} :
    ∀ {m m' : List Node}, m.all (t.memberKeeps C ps) = true → optAll (t.expandNode C D k ps F) m = some m' →
    (∀ n n', t.expandNode C D k ps F n = some n' → WriteOut E (t.Kept C D) [] ps F n n') →
    (∀ j < k, ∀ as as', optAll (t.expandNode C D j ps F) as = some as' → WriteOutL E (t.Kept C D) [] ps F as as') →
    WriteOutG E (t.Kept C D) [] ps F m m'
  | [], _, _, h, _, _ => by cases h; exact .nil _ _
  | n :: m, m', hc, h, h1, h2 => by
    simp only [optAll, Option.bind_eq_some_iff, Option.map_eq_some_iff] at h
    obtain ⟨n', hn, l2, hl, rfl⟩ := h
    simp only [List.all_cons, Bool.and_eq_true] at hc
    have ih := expand_group hc.2 hl h1 h2
    by_cases hr : ∃ s as, n = .rule s as
    · obtain ⟨s, as, rfl⟩ := hr
      have hm := hc.1
      simp only [RuleTable.memberKeeps, Bool.and_eq_true, Option.isNone_iff_eq_none] at hm
      cases k with
      | zero => cases hn
      | succ k =>
        have hk := keeps_choices (D := D) hm.2
        obtain ⟨as', rfl, h3⟩ := expand_rule_kept hm.1 hk hn
        exact .name hm.1 (by simp) hk (h2 k (Nat.lt_succ_self k) as as' h3) ih
    · exact .other (fun s as e => hr ⟨s, as, e⟩) (h1 _ _ hn) ih

theorem expand_writeOut (l : Libs) : ∀ (k : Nat) (ps : List (String × Node)) (F : List String) (n n' : Node),
    t.expandNode C D k ps F n = some n' → WriteOut (l.env t) (t.Kept C D) [] ps F n n'
  | 0, _, _, _, _, h => by cases h
  | k + 1, ps, F, n, n', h => by
    have ih := expand_writeOut l k
    have all : ∀ {as as' : List Node}, optAll (t.expandNode C D k ps F) as = some as' →
        WriteOutL (l.env t) (t.Kept C D) [] ps F as as' := by
      intro as as' ho
      have := optAll_all2 ho
      clear ho
      induction this with
      | nil => exact .nil _ _
      | cons h1 _ ih2 => exact .cons (ih _ _ _ _ h1) ih2
    cases n
    case literal => cases h; exact .literal _ _ _
    case prelude => cases h; exact .prelude _ _ _
    case ctlRegexp => cases h; exact .regexp _ _ _
    case rule s as =>
      simp only [RuleTable.expandNode] at h
      cases hg : argFor ps s with
      | some a => rw [hg] at h; cases h; exact .param _ hg
      | none =>
        rw [hg] at h
        simp only [Option.bind_eq_some_iff] at h
        obtain ⟨as', h1, h2⟩ := h
        cases hf : t.find s with
        | none => rw [hf] at h2; cases h2; exact .name .plain hg (by simp) (.inl hf) (all h1)
        | some d =>
          rw [hf] at h2
          dsimp only at h2
          split at h2
          · rename_i hd
            cases h2
            exact .name .plain hg (by simp) (.inr ⟨d, hf, by simpa using hd, trivial⟩) (all h1)
          · split at h2
            · rename_i hlen
              refine .body _ hg (d := d) ?_ hlen (all h1) ?_ (ih _ _ _ _ h2)
              · simp only [Libs.env, RuleTable.lookup, hf]
              · intro x hx a ha
                simp only [keyParams, List.mem_filter, ha] at hx
                obtain ⟨a', h3, h4⟩ : ∃ a', argFor (d.params.zip as') x = some a' ∧
                    t.expandNode C D k ps F a = some a' := by
                  have hA := optAll_all2 h1
                  have g := argFor_zip2 (ss := d.params) hA
                  cases hz : argFor (d.params.zip as') x with
                  | none => rw [g.1 x hz] at ha; cases ha
                  | some a' =>
                    obtain ⟨b, hb, hr⟩ := g.2 x a' hz
                    rw [ha] at hb
                    cases hb
                    exact ⟨a', rfl, hr⟩
                exact ⟨a', h3, keyArg_out hx.2 h4⟩
            · cases h2
    case choice l =>
      simp only [RuleTable.expandNode, Option.map_eq_some_iff] at h
      obtain ⟨l', h1, rfl⟩ := h
      exact .choice (all h1)
    case map l =>
      simp only [RuleTable.expandNode, Option.map_eq_some_iff] at h
      obtain ⟨l', h1, rfl⟩ := h
      exact .map (all h1)
    case array l =>
      simp only [RuleTable.expandNode, Option.map_eq_some_iff] at h
      obtain ⟨l', h1, rfl⟩ := h
      exact .array (all h1)
    case group l =>
      simp only [RuleTable.expandNode, Option.map_eq_some_iff] at h
      obtain ⟨l', h1, rfl⟩ := h
      exact .group (all h1)
    case keyValue key v x =>
      simp only [RuleTable.expandNode, Option.bind_eq_some_iff, Option.map_eq_some_iff] at h
      obtain ⟨k', h1, v', h2, rfl⟩ := h
      exact .keyValue _ (keyOut_out h1) (ih _ _ _ _ h2)
    case occur o n =>
      simp only [RuleTable.expandNode, Option.map_eq_some_iff] at h
      obtain ⟨v', h1, rfl⟩ := h
      exact .occur _ (ih _ _ _ _ h1)
    case ctlCbor n =>
      simp only [RuleTable.expandNode, Option.map_eq_some_iff] at h
      obtain ⟨v', h1, rfl⟩ := h
      exact .cbor (ih _ _ _ _ h1)
    case range a b i =>
      simp only [RuleTable.expandNode, Option.bind_eq_some_iff, Option.map_eq_some_iff] at h
      obtain ⟨a', h1, b', h2, rfl⟩ := h
      exact .range _ (ih _ _ _ _ h1) (ih _ _ _ _ h2)
    case ctl o a b =>
      simp only [RuleTable.expandNode, Option.bind_eq_some_iff, Option.map_eq_some_iff] at h
      obtain ⟨a', h1, b', h2, rfl⟩ := h
      exact .ctl _ (ih _ _ _ _ h1) (ih _ _ _ _ h2)
    case unwrap s as =>
      simp only [RuleTable.expandNode] at h
      split at h
      · rename_i hc
        simp only [Bool.and_eq_true, Option.isNone_iff_eq_none] at hc
        simp only [Option.map_eq_some_iff] at h
        obtain ⟨l', h1, rfl⟩ := h
        exact .unwrap hc.1 (by simp) (keeps_contents hc.2) (all h1)
      · cases h
    case choiceify s as =>
      simp only [RuleTable.expandNode] at h
      split at h
      · rename_i hc
        simp only [Bool.and_eq_true, Option.isNone_iff_eq_none] at hc
        simp only [Option.map_eq_some_iff] at h
        obtain ⟨l', h1, rfl⟩ := h
        exact .choiceify hc.1 (by simp) (keeps_choices hc.2) (all h1)
      · cases h
    case choiceifyInline m =>
      simp only [RuleTable.expandNode] at h
      split at h
      · rename_i hc
        simp only [Option.map_eq_some_iff] at h
        obtain ⟨l', h1, rfl⟩ := h
        refine .inline (expand_group hc h1 (fun n n' h => ih _ _ _ _ h) fun j hj as as' h => ?_)
        have := optAll_all2 h
        clear h
        induction this with
        | nil => exact .nil _ _
        | cons h2 _ ih2 => exact .cons (expand_writeOut l j _ _ _ _ h2) ih2
      · cases h
termination_by k => k

theorem expand_find {P : String → Bool} {f : String × RuleDef → Option (String × RuleDef)} {g : Node → Option Node}
    (hf : ∀ p, f p = (g p.2.node).map fun n => (p.1, ⟨[], n⟩)) {s : String} :
    ∀ {u u' : RuleTable}, optAll f (u.filter fun p => p.2.params.isEmpty && P p.1) = some u' →
      (u.find s = none → u'.find s = none) ∧
      ∀ d, P s = true → u.find s = some d → d.params = [] → ∃ n', g d.node = some n' ∧ u'.find s = some ⟨[], n'⟩
  | [], u', h => by
    cases h
    exact ⟨fun _ => rfl, fun d _ h => by cases h⟩
  | (x, e) :: u, u', h => by
    by_cases hc : (e.params.isEmpty && P x) = true
    · rw [List.filter_cons_of_pos (by exact hc)] at h
      simp only [optAll, hf, Option.bind_eq_some_iff, Option.map_eq_some_iff] at h
      obtain ⟨_, ⟨n', h1, rfl⟩, u2, h2, rfl⟩ := h
      obtain ⟨i1, i2⟩ := expand_find (P := P) (g := g) hf (s := s) (u := u) h2
      simp only [RuleTable.find]
      constructor
      · intro h
        cases hu : RuleTable.find u s with
        | some d => rw [hu] at h; cases h
        | none =>
          rw [hu] at h
          rw [i1 hu]
          dsimp only at h ⊢
          split at h
          · cases h
          · rw [if_neg ‹_›]
      · intro d hP h hd
        cases hu : RuleTable.find u s with
        | some d' =>
          rw [hu] at h
          cases h
          obtain ⟨n2, h3, h4⟩ := i2 d hP hu hd
          exact ⟨n2, h3, by rw [h4]⟩
        | none =>
          rw [hu] at h
          rw [i1 hu]
          dsimp only at h ⊢
          split at h
          · cases h; rw [if_pos ‹_›]; exact ⟨n', h1, rfl⟩
          · cases h
    · rw [List.filter_cons_of_neg (by exact hc)] at h
      obtain ⟨i1, i2⟩ := expand_find (P := P) (g := g) hf (s := s) (u := u) h
      simp only [RuleTable.find]
      constructor
      · intro h
        cases hu : RuleTable.find u s with
        | some d => rw [hu] at h; cases h
        | none => exact i1 hu
      · intro d hP h hd
        cases hu : RuleTable.find u s with
        | some d' => rw [hu] at h; cases h; exact i2 d hP hu hd
        | none =>
          rw [hu] at h
          dsimp only at h
          split at h
          · cases h
            subst x
            rw [hP, hd] at hc
            exact absurd rfl hc
          · cases h

theorem expand_writeOutL (l : Libs) {k : Nat} {ps : List (String × Node)} {F : List String} :
    ∀ {as as' : List Node}, optAll (t.expandNode C D k ps F) as = some as' →
      WriteOutL (l.env t) (t.Kept C D) [] ps F as as'
  | [], _, h => by cases h; exact .nil _ _
  | a :: as, _, h => by
    simp only [optAll, Option.bind_eq_some_iff, Option.map_eq_some_iff] at h
    obtain ⟨_, h1, _, h2, rfl⟩ := h
    exact .cons (expand_writeOut l k _ _ _ _ h1) (expand_writeOutL l h2)

/-- The schema without generic rules is written out. -/
theorem expand_writtenOut (l : Libs) {t' : RuleTable} {k : Nat} (h : t.expand C D k = some t') :
    WrittenOut (l.env t) (l.env t') (t.Kept C D) := by
  unfold RuleTable.expand at h
  split at h
  · rename_i hu
    have F := fun s => expand_find (P := fun s => (t.find s).any fun d => d.params.isEmpty)
      (g := t.expandNode C D k [] []) (fun _ => rfl) (s := s) h
    refine ⟨rfl, rfl, rfl, fun s u hK => ?_⟩
    simp only [Libs.env, RuleTable.lookup]
    rcases hK with hf | ⟨d, hf, hp, hu'⟩
    · rw [hf, (F s).1 hf]; exact .inl ⟨_, rfl, rfl⟩
    · obtain ⟨n', h1, h2⟩ := (F s).2 d (by simp [hf, hp]) hf hp
      rw [hf, h2]
      have hw := expand_writeOut l k [] [] _ _ h1
      refine .inr ⟨d, _, rfl, rfl, hp.symm, ?_, ?_⟩
      · rw [hp]; exact hw
      · rw [hp]
        simp only [RuleTable.usesFit, Bool.and_eq_true, List.all_eq_true] at hu
        obtain ⟨dp, dn⟩ := d
        dsimp only at *
        subst hp
        cases u with
        | plain => trivial
        | choices =>
          have hu := hu.1 s hu'
          rw [hf] at hu
          cases dn
          case group m =>
            cases k with
            | zero => cases h1
            | succ k =>
              simp only [RuleTable.expandNode, Option.map_eq_some_iff] at h1
              obtain ⟨l', h1, rfl⟩ := h1
              refine .inl ⟨m, l', rfl, rfl, expand_group hu h1 (fun n n' h => expand_writeOut l _ _ _ _ _ h) fun j _ _ _ h => expand_writeOutL l h⟩
          case rule s' as =>
            cases k with
            | zero => cases h1
            | succ k =>
              have hk := keeps_choices (D := D) hu
              obtain ⟨as', h3, h2⟩ := expand_rule_kept rfl hk h1
              subst h3
              refine .inr (.inl ⟨s', as, as', rfl, rfl, by simp, hk, ?_⟩)
              exact expand_writeOutL l ‹optAll _ as = some as'›
          all_goals exact .inr (.inr ⟨by simp, by simp⟩)
        | contents =>
          have hu := hu.2 s hu'
          rw [hf] at hu
          cases dn
          case rule => cases hu
          all_goals exact .inl (by simp)
  · cases h

end Cddl
