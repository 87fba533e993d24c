import Verif.Proofs.Flatten

/-! # Shape and names of translated trees -/

namespace Cddl

open Ast (Ty1 Ty2 MemberKeyVal GrpEntVal GrpEnt RuleVal)

variable {re : String → Bool}

theorem prelude_tree {s : String} {n : Node} (h : (s, n) ∈ preludeTable) : TypeTree re n := by
  rcases preludeTable_notRule _ h with ⟨q, hq⟩ | ⟨b, hq⟩
  · simp only at hq; subst hq; exact .prelude q
  · simp only at hq; subst hq; exact .literal _

theorem oneOf_tree {ns : List Node} {n : Node} (h : ∀ m ∈ ns, TypeTree re m) (ho : OneOrChoice ns n) : TypeTree re n := by
  cases ho with
  | one => exact h _ (by simp)
  | many a b l => exact .choice (by simp) h

mutual
theorem flat2_tree : ∀ {t : Ty2} {n : Node}, Flat2 re t n → Ast.full2 t → TypeTree re n
  | _, _, .value h, _ => .literal _
  | _, _, .preludeName h, _ => prelude_tree h
  | _, _, .name hu h, hf => .rule hu (flat1s_tree h (by simpa [Ast.full2] using hf))
  | _, _, .parens h ho, hf => oneOf_tree (flat1s_tree h (by simpa [Ast.full2] using hf)) ho
  | _, _, .map h, hf => by
    simp only [Ast.full2] at hf
    exact .map (flatGroup_tree h hf.1 hf.2)
  | _, _, .array h, hf => by
    simp only [Ast.full2] at hf
    exact .array (flatGroup_tree h hf.1 hf.2)
  | _, _, .unwrap hu h, hf => .unwrap hu (flat1s_tree h (by simpa [Ast.full2] using hf))
  | _, _, .choiceify hu h, hf => .choiceify hu (flat1s_tree h (by simpa [Ast.full2] using hf))
  | _, _, .inline h, hf => by
    simp only [Ast.full2] at hf
    exact .inline (flatGroup_tree h hf.1 hf.2)
theorem flat1_tree : ∀ {t : Ty1} {n : Node}, Flat1 re t n → Ast.full1 t → TypeTree re n
  | _, _, .simple h, hf => flat2_tree h (by simpa [Ast.full1] using hf)
  | _, _, .range ha hb, hf => by
    simp only [Ast.full1] at hf
    exact .range (flatPoint_tree ha hf.1) (flatPoint_tree hb hf.2)
  | _, _, .ctl op ht ha hc, hf => by
    simp only [Ast.full1] at hf
    exact .ctl (flat2_tree ht hf.1) (flat2_tree ha hf.2) hc
  | _, _, .regexp ht ha hp, hf => .regexp hp
  | _, _, .cbor ht ha, hf => by
    simp only [Ast.full1] at hf
    exact .cbor (flat2_tree ha hf.2)
theorem flatPoint_tree : ∀ {t : Ty2} {n : Node}, FlatPoint re t n → Ast.full2 t → PointTree re n
  | _, _, .value h, _ => .literal _
  | _, _, .literalName h, _ => .literal _
  | _, _, .name hu h, hf => .rule hu (flat1s_tree h (by simpa [Ast.full2] using hf))
theorem flat1s_tree : ∀ {t : List Ty1} {ns : List Node}, Flat1s re t ns → Ast.full1s t → ∀ n ∈ ns, TypeTree re n
  | _, _, .nil, _ => by simp
  | _, _, .cons h hs, hf => by
    simp only [Ast.full1s] at hf
    simp only [List.forall_mem_cons]
    exact ⟨flat1_tree h hf.1, flat1s_tree hs hf.2⟩
theorem flatGroup_tree : ∀ {g : List (List GrpEnt)} {ns : List Node}, FlatGroup re g ns → g ≠ [] →
    Ast.fullGroup g → MembersTree re ns
  | _, _, .one h, _, hf => by
    simp only [Ast.fullGroup] at hf
    exact .entries (flatEntries_tree h hf.1)
  | g, _, .many hl h, hne, hf => by
    have := flatOptions_tree h hf
    refine .choice ?_ this.1
    rw [this.2]
    cases g with
    | nil => exact absurd rfl hne
    | cons a g =>
      cases g with
      | nil => simp at hl
      | cons b g => simp
theorem flatOptions_tree : ∀ {g : List (List GrpEnt)} {os : List Node}, FlatOptions re g os → Ast.fullGroup g →
    (∀ o ∈ os, OptionTree re o) ∧ os.length = g.length
  | _, _, .nil, _ => by simp
  | _, _, .cons h hs, hf => by
    simp only [Ast.fullGroup] at hf
    have := flatOptions_tree hs hf.2
    simp only [List.forall_mem_cons, List.length_cons, this.2, and_true]
    exact ⟨.group (flatEntries_tree h hf.1), this.1⟩
theorem flatEntries_tree : ∀ {t : List GrpEnt} {ns : List Node}, FlatEntries re t ns → Ast.fullEntries t →
    ∀ n ∈ ns, EntryTree re n
  | _, _, .nil, _ => by simp
  | _, _, .cons h hs, hf => by
    simp only [Ast.fullEntries] at hf
    simp only [List.forall_mem_cons]
    exact ⟨flatEntry_tree h hf.1, flatEntries_tree hs hf.2⟩
theorem flatEntry_tree : ∀ {t : GrpEnt} {n : Node}, FlatEntry re t n → Ast.fullEntry t → EntryTree re n
  | _, _, .mk h ho, hf => by
    have := flatEntryVal_tree h (by simpa [Ast.fullEntry] using hf)
    cases ho with
    | none => exact .bare this
    | some => exact .occur this
theorem flatEntryVal_tree : ∀ {t : GrpEntVal} {n : Node}, FlatEntryVal re t n → Ast.fullEntryVal t → BareTree re n
  | _, _, .member h ho, hf => .type (oneOf_tree (flat1s_tree h (by simpa [Ast.fullEntryVal] using hf)) ho)
  | _, _, .keyed hk h ho, hf => by
    simp only [Ast.fullEntryVal] at hf
    exact .keyValue (flatKey_tree hk hf.1) (oneOf_tree (flat1s_tree h hf.2) ho)
  | _, _, .preludeName h, _ => .type (prelude_tree h)
  | _, _, .name h, _ => .type (.rule h (by simp))
  | _, _, .parens h, hf => by
    simp only [Ast.fullEntryVal] at hf
    exact .group (flatGroup_tree h hf.1 hf.2)
theorem flatKey_tree : ∀ {t : MemberKeyVal} {n : Node}, FlatKey re t n → Ast.fullKey t → TypeTree re n
  | _, _, .bareword s, _ => .literal _
  | _, _, .type1 h, hf => flat1_tree h (by simpa [Ast.fullKey] using hf)
  | _, _, .value h, _ => .literal _
end

/-! ## Names -/

theorem prelude_names {s : String} {n : Node} (h : (s, n) ∈ preludeTable) : n.names = [] := by
  rcases preludeTable_notRule _ h with ⟨q, hq⟩ | ⟨b, hq⟩ <;> (simp only at hq; subst hq; rfl)

theorem prelude_supported {s : String} {n : Node} (h : (s, n) ∈ preludeTable) : s ∉ unsupportedNames := by
  intro hu
  have h1 := preludeTable_flatten _ h
  rw [unsupported_flatten s hu] at h1
  cases h1

theorem oneOf_names {ns : List Node} {n : Node} (ho : OneOrChoice ns n) : n.names = Node.namesL ns := by
  cases ho with
  | one => simp [Node.namesL]
  | many a b l => simp [Node.names]

theorem occurs_names {o : Option OccurLimit} {m n : Node} (ho : Occurs o m n) : n.names = m.names := by
  cases ho with
  | none => rfl
  | some => simp [Node.names]

/-- The names in `n` are free for the author and come from the tree, whose names are supported. -/
def NamesOK (ns : List String) (ts : List String) : Prop :=
  (∀ s ∈ ns, UserName s ∧ s ∈ ts) ∧ (∀ s ∈ ts, s ∉ unsupportedNames ∧ (UserName s → s ∈ ns))

theorem NamesOK.nil : NamesOK [] [] := ⟨by simp, by simp⟩

theorem NamesOK.append {a b c d : List String} (h : NamesOK a b) (h' : NamesOK c d) : NamesOK (a ++ c) (b ++ d) := by
  refine ⟨fun s hs => ?_, fun s hs => ?_⟩
  · rcases List.mem_append.mp hs with hs | hs
    · exact ⟨(h.1 s hs).1, List.mem_append.mpr (.inl (h.1 s hs).2)⟩
    · exact ⟨(h'.1 s hs).1, List.mem_append.mpr (.inr (h'.1 s hs).2)⟩
  · rcases List.mem_append.mp hs with hs | hs
    · exact ⟨(h.2 s hs).1, fun hu => List.mem_append.mpr (.inl ((h.2 s hs).2 hu))⟩
    · exact ⟨(h'.2 s hs).1, fun hu => List.mem_append.mpr (.inr ((h'.2 s hs).2 hu))⟩

theorem NamesOK.cons {s : String} {a b : List String} (hu : UserName s) (h : NamesOK a b) :
    NamesOK (s :: a) (s :: b) := by
  have : NamesOK [s] [s] := ⟨by simp [hu], by simpa using hu.2⟩
  exact this.append h

theorem NamesOK.prelude {s : String} {n : Node} (h : (s, n) ∈ preludeTable) : NamesOK [] [s] := by
  refine ⟨by simp, ?_⟩
  simp only [List.mem_singleton, forall_eq]
  refine ⟨prelude_supported h, fun hu => ?_⟩
  exact absurd (List.mem_map.mpr ⟨_, h, rfl⟩) hu.1

mutual
theorem flat2_names : ∀ {t : Ty2} {n : Node}, Flat2 re t n → NamesOK n.names (Ast.names2 t)
  | _, _, .value h => by simpa [Node.names, Ast.names2] using NamesOK.nil
  | _, _, .preludeName h => by
    rw [prelude_names h]; simpa [Ast.names2, Ast.names1s] using NamesOK.prelude h
  | _, _, .name hu h => by simpa [Node.names, Ast.names2] using (flat1s_names h).cons hu
  | _, _, .parens h ho => by rw [oneOf_names ho]; simpa [Ast.names2] using flat1s_names h
  | _, _, .map h => by simpa [Node.names, Ast.names2] using flatGroup_names h
  | _, _, .array h => by simpa [Node.names, Ast.names2] using flatGroup_names h
  | _, _, .unwrap hu h => by simpa [Node.names, Ast.names2] using (flat1s_names h).cons hu
  | _, _, .choiceify hu h => by simpa [Node.names, Ast.names2] using (flat1s_names h).cons hu
  | _, _, .inline h => by simpa [Node.names, Ast.names2] using flatGroup_names h
theorem flat1_names : ∀ {t : Ty1} {n : Node}, Flat1 re t n → NamesOK n.names (Ast.names1 t)
  | _, _, .simple h => by simpa [Ast.names1] using flat2_names h
  | _, _, .range ha hb => by
    simpa [Node.names, Ast.names1] using (flatPoint_names ha).append (flatPoint_names hb)
  | _, _, .ctl op ht ha hc => by simpa [Node.names, Ast.names1] using (flat2_names ht).append (flat2_names ha)
  | _, _, .regexp ht ha hp => by
    simpa [Node.names, Ast.names1] using (flat2_names ht).append (flat2_names ha)
  | _, _, .cbor ht ha => by simpa [Node.names, Ast.names1] using (flat2_names ht).append (flat2_names ha)
theorem flatPoint_names : ∀ {t : Ty2} {n : Node}, FlatPoint re t n → NamesOK n.names (Ast.names2 t)
  | _, _, .value h => by simpa [Node.names, Ast.names2] using NamesOK.nil
  | _, _, .literalName h => by
    rw [prelude_names h]; simpa [Ast.names2, Ast.names1s] using NamesOK.prelude h
  | _, _, .name hu h => by simpa [Node.names, Ast.names2] using (flat1s_names h).cons hu
theorem flat1s_names : ∀ {t : List Ty1} {ns : List Node}, Flat1s re t ns → NamesOK (Node.namesL ns) (Ast.names1s t)
  | _, _, .nil => by simpa [Node.namesL, Ast.names1s] using NamesOK.nil
  | _, _, .cons h hs => by simpa [Node.namesL, Ast.names1s] using (flat1_names h).append (flat1s_names hs)
theorem flatGroup_names : ∀ {g : List (List GrpEnt)} {ns : List Node}, FlatGroup re g ns →
    NamesOK (Node.namesL ns) (Ast.namesGroup g)
  | _, _, .one h => by simpa [Ast.namesGroup] using flatEntries_names h
  | g, _, .many hl h => by simpa [Node.namesL, Node.names] using flatOptions_names h
theorem flatOptions_names : ∀ {g : List (List GrpEnt)} {os : List Node}, FlatOptions re g os →
    NamesOK (Node.namesL os) (Ast.namesGroup g)
  | _, _, .nil => by simpa [Node.namesL, Ast.namesGroup] using NamesOK.nil
  | _, _, .cons h hs => by
    simpa [Node.namesL, Node.names, Ast.namesGroup] using (flatEntries_names h).append (flatOptions_names hs)
theorem flatEntries_names : ∀ {t : List GrpEnt} {ns : List Node}, FlatEntries re t ns →
    NamesOK (Node.namesL ns) (Ast.namesEntries t)
  | _, _, .nil => by simpa [Node.namesL, Ast.namesEntries] using NamesOK.nil
  | _, _, .cons h hs => by
    simpa [Node.namesL, Ast.namesEntries] using (flatEntry_names h).append (flatEntries_names hs)
theorem flatEntry_names : ∀ {t : GrpEnt} {n : Node}, FlatEntry re t n → NamesOK n.names (Ast.namesEntry t)
  | _, _, .mk h ho => by rw [occurs_names ho]; simpa [Ast.namesEntry] using flatEntryVal_names h
theorem flatEntryVal_names : ∀ {t : GrpEntVal} {n : Node}, FlatEntryVal re t n →
    NamesOK n.names (Ast.namesEntryVal t)
  | _, _, .member h ho => by rw [oneOf_names ho]; simpa [Ast.namesEntryVal] using flat1s_names h
  | _, _, .keyed hk h ho => by
    simpa [Node.names, Ast.namesEntryVal, oneOf_names ho] using (flatKey_names hk).append (flat1s_names h)
  | _, _, .preludeName h => by
    rw [prelude_names h]; simpa [Ast.namesEntryVal] using NamesOK.prelude h
  | _, _, .name h => by simpa [Node.names, Node.namesL, Ast.namesEntryVal] using NamesOK.nil.cons h
  | _, _, .parens h => by simpa [Node.names, Ast.namesEntryVal] using flatGroup_names h
theorem flatKey_names : ∀ {t : MemberKeyVal} {n : Node}, FlatKey re t n → NamesOK n.names (Ast.namesKey t)
  | _, _, .bareword s => by simpa [Node.names, Ast.namesKey] using NamesOK.nil
  | _, _, .type1 h => by simpa [Ast.namesKey] using flat1_names h
  | _, _, .value h => by simpa [Node.names, Ast.namesKey] using NamesOK.nil
end

theorem flatRule_names {r : Ast.Rule} {p : String × RuleDef} (h : FlatRule re r p) : NamesOK p.2.node.names r.names := by
  cases h with
  | type h ho => simpa [Ast.Rule.names, oneOf_names ho] using flat1s_names h
  | group h => simpa [Ast.Rule.names] using flatEntry_names h

end Cddl
