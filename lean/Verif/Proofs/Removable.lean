import Verif.Spec.Removable
import Verif.Proofs.Expand
import Verif.Props.C44

/-! # Generic rules that are not recursive can be removed -/

namespace Cddl

variable {t : RuleTable} {C D : List String}

theorem optAll_mono {α β : Type} {f g : α → Option β} (h : ∀ a b, f a = some b → g a = some b) :
    ∀ {l : List α} {l' : List β}, optAll f l = some l' → optAll g l = some l'
  | [], _, h1 => h1
  | a :: l, l', h1 => by
    simp only [optAll, Option.bind_eq_some_iff, Option.map_eq_some_iff] at h1 ⊢
    obtain ⟨b, h2, l2, h3, h4⟩ := h1
    exact ⟨b, h a b h2, l2, optAll_mono h h3, h4⟩

theorem expandNode_succ : ∀ (k : Nat) (ps : List (String × Node)) (F : List String) (n n' : Node),
    t.expandNode C D k ps F n = some n' → t.expandNode C D (k + 1) ps F n = some n'
  | 0, _, _, _, _, h => by cases h
  | k + 1, ps, F, n, n', h => by
    have ih := expandNode_succ k
    have all : ∀ {l l' : List Node}, optAll (t.expandNode C D k ps F) l = some l' →
        optAll (t.expandNode C D (k + 1) ps F) l = some l' := fun h => optAll_mono (ih ps F) h
    cases n
    case literal => exact h
    case prelude => exact h
    case ctlRegexp => exact h
    case rule s as =>
      rw [RuleTable.expandNode] at h ⊢
      split at h
      · exact h
      · simp only [Option.bind_eq_some_iff] at h ⊢
        obtain ⟨as', h1, h2⟩ := h
        refine ⟨as', all h1, ?_⟩
        split at h2
        · exact h2
        · split at h2
          · rw [if_pos ‹_›]; exact h2
          · rw [if_neg ‹_›]
            split at h2
            · rw [if_pos ‹_›]; exact ih _ _ _ _ h2
            · cases h2
    case keyValue =>
      rw [RuleTable.expandNode] at h ⊢
      simp only [Option.bind_eq_some_iff, Option.map_eq_some_iff] at h ⊢
      obtain ⟨a, h1, b, h2, h3⟩ := h
      exact ⟨a, h1, b, ih _ _ _ _ h2, h3⟩
    case range =>
      rw [RuleTable.expandNode] at h ⊢
      simp only [Option.bind_eq_some_iff, Option.map_eq_some_iff] at h ⊢
      obtain ⟨a, h1, b, h2, h3⟩ := h
      exact ⟨a, ih _ _ _ _ h1, b, ih _ _ _ _ h2, h3⟩
    case ctl =>
      rw [RuleTable.expandNode] at h ⊢
      simp only [Option.bind_eq_some_iff, Option.map_eq_some_iff] at h ⊢
      obtain ⟨a, h1, b, h2, h3⟩ := h
      exact ⟨a, ih _ _ _ _ h1, b, ih _ _ _ _ h2, h3⟩
    case occur =>
      rw [RuleTable.expandNode] at h ⊢
      simp only [Option.map_eq_some_iff] at h ⊢
      obtain ⟨a, h1, h2⟩ := h
      exact ⟨a, ih _ _ _ _ h1, h2⟩
    case ctlCbor =>
      rw [RuleTable.expandNode] at h ⊢
      simp only [Option.map_eq_some_iff] at h ⊢
      obtain ⟨a, h1, h2⟩ := h
      exact ⟨a, ih _ _ _ _ h1, h2⟩
    case unwrap =>
      rw [RuleTable.expandNode] at h ⊢
      split at h
      · rw [if_pos ‹_›]
        simp only [Option.map_eq_some_iff] at h ⊢
        obtain ⟨a, h1, h2⟩ := h
        exact ⟨a, all h1, h2⟩
      · cases h
    case choiceify =>
      rw [RuleTable.expandNode] at h ⊢
      split at h
      · rw [if_pos ‹_›]
        simp only [Option.map_eq_some_iff] at h ⊢
        obtain ⟨a, h1, h2⟩ := h
        exact ⟨a, all h1, h2⟩
      · cases h
    case choiceifyInline =>
      rw [RuleTable.expandNode] at h ⊢
      split at h
      · rw [if_pos ‹_›]
        simp only [Option.map_eq_some_iff] at h ⊢
        obtain ⟨a, h1, h2⟩ := h
        exact ⟨a, all h1, h2⟩
      · cases h
    all_goals
      rw [RuleTable.expandNode] at h ⊢
      simp only [Option.map_eq_some_iff] at h ⊢
      obtain ⟨a, h1, h2⟩ := h
      exact ⟨a, all h1, h2⟩

theorem expandNode_mono {k m : Nat} (hkm : k ≤ m) {ps : List (String × Node)} {F : List String} {n n' : Node}
    (h : t.expandNode C D k ps F n = some n') : t.expandNode C D m ps F n = some n' := by
  induction hkm with
  | refl => exact h
  | step _ ih => exact expandNode_succ _ _ _ _ _ ih

theorem argFor_zip_some {ss : List String} : ∀ {as : List Node}, ss.length = as.length → ∀ s,
    (argFor (ss.zip as) s).isSome = true ↔ s ∈ ss := by
  induction ss with
  | nil => intro as _ s; simp [argFor]
  | cons x ss ih =>
    intro as h s
    cases as with
    | nil => cases h
    | cons a as =>
      have ih := ih (Nat.succ.inj h) s
      rw [List.zip_cons_cons, argFor, List.mem_cons]
      split
      · rename_i h1
        rw [h1] at ih
        simp only [Option.isSome_some, true_iff] at ih ⊢
        exact .inr ih
      · rename_i h1
        rw [h1] at ih
        simp only [Option.isSome_none, Bool.false_eq_true, false_iff] at ih
        split
        · rename_i h2; subst h2; simp
        · rename_i h2
          simp only [Option.isSome_none, Bool.false_eq_true, false_iff, not_or]
          exact ⟨fun h => h2 h.symm, ih⟩

section
variable {P : String → List String} {rank : String → Nat} (R : t.Ranked C D P rank)
include R

mutual
theorem expandNode_some (r : Nat) (q Fs : List String) (ps : List (String × Node)) (F : List String)
    (hq : ∀ s, s ∈ q ↔ (argFor ps s).isSome = true) (hF : ∀ s ∈ Fs, s ∈ F ∧ s ∈ q) (n : Node)
    (hn : t.fits C D P q Fs n = true) (hr : ∀ s ∈ n.names, s ∉ q → t.isGeneric s = true → rank s < r) :
    ∃ k n', t.expandNode C D k ps F n = some n' := by
  have hno : ∀ {s}, (!q.contains s) = true → (argFor ps s).isNone = true := by
    intro s h
    cases h1 : (argFor ps s).isSome with
    | true => rw [← hq] at h1; simp [h1] at h
    | false => simpa using h1
  cases n with
  | literal l => exact ⟨1, _, rfl⟩
  | prelude l => exact ⟨1, _, rfl⟩
  | ctlRegexp l => exact ⟨1, _, rfl⟩
  | rule s as =>
    simp only [RuleTable.fits, Bool.and_eq_true] at hn
    obtain ⟨k1, as', h1⟩ := expandNode_someL r q Fs ps F hq hF as hn.1 fun s hs => hr s (by simp [Node.names, hs])
    cases h2 : argFor ps s with
    | some a => exact ⟨1, a, by simp only [RuleTable.expandNode, h2]⟩
    | none =>
      have hsq : s ∉ q := by rw [hq, h2]; simp
      cases h3 : t.find s with
      | none => exact ⟨k1 + 1, .rule s as', by simp only [RuleTable.expandNode, h2, h1, h3, Option.bind_some]⟩
      | some d =>
        by_cases h4 : d.params.isEmpty = true
        · exact ⟨k1 + 1, .rule s as', by simp only [RuleTable.expandNode, h2, h1, h3, h4, Option.bind_some, if_true]⟩
        · have h5 := hn.2
          simp only [h3, h4, List.contains_iff_mem, hsq, Bool.or_eq_true, false_or, Bool.and_eq_true, decide_eq_true_eq,
            Bool.false_eq_true, List.all_eq_true, Option.any_eq_true] at h5
          obtain ⟨h5, h6⟩ := h5
          have hm : (s, d) ∈ t := by
            obtain ⟨a, b, rfl, _⟩ := find_last.mp h3
            simp
          have hne : d.params ≠ [] := by simpa using h4
          have hg : t.isGeneric s = true := by simp [RuleTable.isGeneric, h3, hne]
          have hlt : rank s < r := hr s (by simp [Node.names]) hsq hg
          have hlen : as.length = as'.length := (optAll_all2 h1).length
          obtain ⟨k2, n', h7⟩ := expandNode_some (rank s) d.params (P s) (d.params.zip as')
            (keyParams ps F (d.params.zip as) d.params)
            (fun u => (argFor_zip_some (h5.trans hlen) u).symm)
            (fun u hu => by
              obtain ⟨a, h8, h9⟩ := h6 u hu
              have hup : u ∈ d.params := (argFor_zip_some h5 u).mp (by rw [h8]; rfl)
              refine ⟨List.mem_filter.mpr ⟨hup, ?_⟩, hup⟩
              simp only [h8]
              cases a <;> simp only [keyFit, keyArg, Bool.false_eq_true] at h9 ⊢ <;> try exact h9
              rw [List.contains_iff_mem] at h9
              obtain ⟨g1, g2⟩ := hF _ h9
              rw [hq] at g2
              simp [g1, g2])
            d.node (R.generic _ hm hne) (R.lower _ hm hne)
          refine ⟨max k1 k2 + 1, n', ?_⟩
          have e1 : optAll (t.expandNode C D (max k1 k2) ps F) as = some as' :=
            optAll_mono (fun a b h => expandNode_mono (Nat.le_max_left _ _) h) h1
          simp only [RuleTable.expandNode, h2, e1, h3, Option.bind_some]
          rw [if_neg h4, if_pos h5]
          exact expandNode_mono (Nat.le_max_right _ _) h7
  | keyValue key v x =>
    simp only [RuleTable.fits, Bool.and_eq_true] at hn
    obtain ⟨k, v', h1⟩ := expandNode_some r q Fs ps F hq hF v hn.2 fun s hs => hr s (by simp [Node.names, hs])
    have h2 : ∃ key', keyOut ps F key = some key' := by
      unfold keyOut
      cases h3 : key.names.isEmpty with
      | true => exact ⟨key, rfl⟩
      | false =>
        have h4 := hn.1
        rw [h3, Bool.false_or] at h4
        split at h4
        · simp only [List.contains_iff_mem] at h4
          obtain ⟨g1, g2⟩ := hF _ h4
          rw [hq, Option.isSome_iff_exists] at g2
          simpa [g1] using g2
        · cases h4
    obtain ⟨key', h2⟩ := h2
    exact ⟨k + 1, .keyValue key' v' x, by simp only [RuleTable.expandNode, h1, h2, Option.bind_some, Option.map_some]⟩
  | occur o m =>
    obtain ⟨k, m', h1⟩ := expandNode_some r q Fs ps F hq hF m (by simpa [RuleTable.fits] using hn) hr
    exact ⟨k + 1, .occur o m', by simp only [RuleTable.expandNode, h1, Option.map_some]⟩
  | ctlCbor m =>
    obtain ⟨k, m', h1⟩ := expandNode_some r q Fs ps F hq hF m (by simpa [RuleTable.fits] using hn) hr
    exact ⟨k + 1, .ctlCbor m', by simp only [RuleTable.expandNode, h1, Option.map_some]⟩
  | range a b x =>
    simp only [RuleTable.fits, Bool.and_eq_true] at hn
    obtain ⟨k1, a', h1⟩ := expandNode_some r q Fs ps F hq hF a hn.1 fun s hs => hr s (by simp [Node.names, hs])
    obtain ⟨k2, b', h2⟩ := expandNode_some r q Fs ps F hq hF b hn.2 fun s hs => hr s (by simp [Node.names, hs])
    exact ⟨max k1 k2 + 1, .range a' b' x, by
      simp only [RuleTable.expandNode, expandNode_mono (Nat.le_max_left k1 k2) h1, expandNode_mono (Nat.le_max_right k1 k2) h2,
        Option.bind_some, Option.map_some]⟩
  | ctl o a b =>
    simp only [RuleTable.fits, Bool.and_eq_true] at hn
    obtain ⟨k1, a', h1⟩ := expandNode_some r q Fs ps F hq hF a hn.1 fun s hs => hr s (by simp [Node.names, hs])
    obtain ⟨k2, b', h2⟩ := expandNode_some r q Fs ps F hq hF b hn.2 fun s hs => hr s (by simp [Node.names, hs])
    exact ⟨max k1 k2 + 1, .ctl o a' b', by
      simp only [RuleTable.expandNode, expandNode_mono (Nat.le_max_left k1 k2) h1, expandNode_mono (Nat.le_max_right k1 k2) h2,
        Option.bind_some, Option.map_some]⟩
  | unwrap s as =>
    simp only [RuleTable.fits, Bool.and_eq_true] at hn
    obtain ⟨k, as', h1⟩ := expandNode_someL r q Fs ps F hq hF as hn.2 fun s hs => hr s (by simp [Node.names, hs])
    exact ⟨k + 1, .unwrap s as', by
      simp only [RuleTable.expandNode, hno hn.1.1, hn.1.2, h1, Bool.and_self, if_true, Option.map_some]⟩
  | choiceify s as =>
    simp only [RuleTable.fits, Bool.and_eq_true] at hn
    obtain ⟨k, as', h1⟩ := expandNode_someL r q Fs ps F hq hF as hn.2 fun s hs => hr s (by simp [Node.names, hs])
    exact ⟨k + 1, .choiceify s as', by
      simp only [RuleTable.expandNode, hno hn.1.1, hn.1.2, h1, Bool.and_self, if_true, Option.map_some]⟩
  | choiceifyInline l =>
    simp only [RuleTable.fits, Bool.and_eq_true] at hn
    obtain ⟨k, as', h1⟩ := expandNode_someL r q Fs ps F hq hF l hn.2 hr
    have h2 : l.all (t.memberKeeps C ps) = true := by
      rw [List.all_eq_true]
      intro n hm
      have := List.all_eq_true.mp hn.1 n hm
      cases n <;> simp only [RuleTable.memberKeeps]
      simp only [Bool.and_eq_true] at this
      simp only [hno this.1, this.2, Bool.and_self]
    exact ⟨k + 1, .choiceifyInline as', by simp only [RuleTable.expandNode, h2, h1, if_true, Option.map_some]⟩
  | choice l =>
    obtain ⟨k, l', h1⟩ := expandNode_someL r q Fs ps F hq hF l (by simpa [RuleTable.fits] using hn) hr
    exact ⟨k + 1, .choice l', by simp only [RuleTable.expandNode, h1, Option.map_some]⟩
  | map l =>
    obtain ⟨k, l', h1⟩ := expandNode_someL r q Fs ps F hq hF l (by simpa [RuleTable.fits] using hn) hr
    exact ⟨k + 1, .map l', by simp only [RuleTable.expandNode, h1, Option.map_some]⟩
  | array l =>
    obtain ⟨k, l', h1⟩ := expandNode_someL r q Fs ps F hq hF l (by simpa [RuleTable.fits] using hn) hr
    exact ⟨k + 1, .array l', by simp only [RuleTable.expandNode, h1, Option.map_some]⟩
  | group l =>
    obtain ⟨k, l', h1⟩ := expandNode_someL r q Fs ps F hq hF l (by simpa [RuleTable.fits] using hn) hr
    exact ⟨k + 1, .group l', by simp only [RuleTable.expandNode, h1, Option.map_some]⟩
termination_by (r, sizeOf n)
theorem expandNode_someL (r : Nat) (q Fs : List String) (ps : List (String × Node)) (F : List String)
    (hq : ∀ s, s ∈ q ↔ (argFor ps s).isSome = true) (hF : ∀ s ∈ Fs, s ∈ F ∧ s ∈ q) (l : List Node)
    (hn : t.fitsL C D P q Fs l = true) (hr : ∀ s ∈ Node.namesL l, s ∉ q → t.isGeneric s = true → rank s < r) :
    ∃ k l', optAll (t.expandNode C D k ps F) l = some l' := by
  cases l with
  | nil => exact ⟨0, [], rfl⟩
  | cons n l =>
    simp only [RuleTable.fitsL, Bool.and_eq_true] at hn
    obtain ⟨k1, n', h1⟩ := expandNode_some r q Fs ps F hq hF n hn.1 fun s hs => hr s (by simp [Node.namesL, hs])
    obtain ⟨k2, l', h2⟩ := expandNode_someL r q Fs ps F hq hF l hn.2 fun s hs => hr s (by simp [Node.namesL, hs])
    exact ⟨max k1 k2, n' :: l', by
      simp only [optAll, expandNode_mono (Nat.le_max_left k1 k2) h1,
        optAll_mono (fun a b h => expandNode_mono (Nat.le_max_right k1 k2) h) h2, Option.bind_some, Option.map_some]⟩
termination_by (r, sizeOf l)
end

/-- The schema without its generic rules is defined. -/
theorem expand_some : ∃ k t', t.expand C D k = some t' := by
  unfold RuleTable.expand
  rw [R.uses]
  simp only [if_true]
  have : ∀ u : RuleTable, (∀ p ∈ u, p ∈ t ∧ p.2.params = []) →
      ∃ k t', optAll (fun p => (t.expandNode C D k [] [] p.2.node).map fun n => (p.1, (⟨[], n⟩ : RuleDef))) u = some t' := by
    intro u
    induction u with
    | nil => intro _; exact ⟨0, [], rfl⟩
    | cons p u ih =>
      intro h
      obtain ⟨k1, u', h1⟩ := ih fun p hp => h p (List.mem_cons_of_mem _ hp)
      obtain ⟨hp, he⟩ := h p List.mem_cons_self
      obtain ⟨N, hN⟩ : ∃ N, ∀ s ∈ p.2.node.names, rank s < N := by
        generalize p.2.node.names = l
        induction l with
        | nil => exact ⟨0, by simp⟩
        | cons x l ih =>
          obtain ⟨N, hN⟩ := ih
          refine ⟨max N (rank x + 1), fun s hs => ?_⟩
          rcases List.mem_cons.mp hs with rfl | hs
          · omega
          · have := hN s hs; omega
      obtain ⟨k2, n', h2⟩ := expandNode_some R N [] [] [] [] (by simp [argFor]) (by simp) p.2.node (R.plain p hp he)
        fun s hs _ _ => hN s hs
      refine ⟨max k1 k2, (p.1, ⟨[], n'⟩) :: u', ?_⟩
      have e1 := optAll_mono (g := fun p => (t.expandNode C D (max k1 k2) [] [] p.2.node).map fun n => (p.1, (⟨[], n⟩ : RuleDef)))
        (fun a b h => by
          simp only [Option.map_eq_some_iff] at h ⊢
          obtain ⟨x, h3, h4⟩ := h
          exact ⟨x, expandNode_mono (Nat.le_max_left k1 k2) h3, h4⟩) h1
      simp only [optAll, expandNode_mono (Nat.le_max_right k1 k2) h2, e1, Option.bind_some, Option.map_some]
  exact this _ fun p hp => by
    have := List.mem_filter.mp hp
    simp only [Bool.and_eq_true, List.isEmpty_iff] at this
    exact ⟨this.1, this.2.1⟩
end

end Cddl
