import Verif.Spec.Grammar
import Verif.Spec.Syntax
import Verif.Spec.Size

/-! # The size of the types of a text

By recursion on the derivation of the text in the grammar, each type it stands for is at most twice as large as the
text is long. -/

namespace Cddl

open Ast (Ty Ty1 Ty2 MemberKeyVal GrpEntVal GrpEnt Group GrpChoice RuleVal)

variable {x : ParseExt} {st : Bool} {re : String → Bool}

theorem Ident.length_pos {s : List Char} : Ident s → 1 ≤ s.length
  | .mk _ _ => by simp

theorem UintText.length_pos {s : List Char} {n : Nat} : UintText s n → 1 ≤ s.length := by
  intro h; cases h <;> simp

theorem ValueText.length_pos {s : List Char} {v : Ast.Value} (h : ValueText x st s v) : 1 ≤ s.length := by
  cases h with
  | uint h _ => exact h.length_pos
  | float _ h => have := h.length_pos; simp; omega
  | _ => simp

theorem OccurText.length_pos {s : List Char} {o : OccurLimit} (h : OccurText s o) : 1 ≤ s.length := by
  cases h <;> simp only [List.length_cons, List.length_append] <;> omega

theorem prelude_size {s : String} {n : Node} (h : (s, n) ∈ preludeTable) : n.size = 1 := by
  have hs : ∀ r ∈ preludeTable, r.2.size = 1 := by
    simp only [preludeTable, List.forall_mem_cons, Node.size]
    simp
  exact hs _ h

theorem OneOrChoice.size_le {ns : List Node} {n : Node} {k : Nat} (h : OneOrChoice ns n)
    (hk : Node.sizes ns + ns.length ≤ k + 1) : n.size ≤ k := by
  cases h <;> simp only [Node.size, Node.sizes, List.length_cons, List.length_nil] at * <;> omega

mutual
theorem GTy2.size_le {s : List Char} {t : Ty2} :
    GTy2 x st s t → ∀ n, (Flat2 re t n → n.size ≤ 2 * s.length) ∧ (FlatPoint re t n → n.size ≤ 2 * s.length)
  | .value h => fun n => by
      have hl := h.length_pos
      constructor <;> intro hb <;> cases hb <;> simp only [Node.size] <;> omega
  | .name h => fun n => by
      have ih := GName.size_le h
      have hl := ih.1
      constructor <;> intro hb
      · cases hb with
        | preludeName hb => rw [prelude_size hb]; omega
        | name _ hb => exact ih.2 _ hb
      · cases hb with
        | literalName hb => rw [prelude_size hb]; omega
        | name _ hb => exact ih.2 _ hb
  | .parens _ h _ => fun n => by
      have ih := GTy.size_le h
      constructor <;> intro hb
      · cases hb with
        | parens hb ho =>
          have := ho.size_le (ih _ hb)
          simp only [List.length_cons, List.length_append] at *; omega
      · cases hb
  | .map _ h _ => fun n => by
      have ih := (GGroup.size_le h).1
      constructor <;> intro hb
      · cases hb with
        | map hb =>
          have := ih _ hb
          simp only [Node.size, List.length_cons, List.length_append] at *; omega
      · cases hb
  | .array _ h _ => fun n => by
      have ih := (GGroup.size_le h).1
      constructor <;> intro hb
      · cases hb with
        | array hb =>
          have := ih _ hb
          simp only [Node.size, List.length_cons, List.length_append] at *; omega
      · cases hb
  | .unwrap _ h => fun n => by
      have ih := (GName.size_le h).2
      constructor <;> intro hb
      · cases hb with
        | unwrap _ hb =>
          have := ih _ hb
          simp only [Node.size, List.length_cons, List.length_append] at *; omega
      · cases hb
  | .inline _ _ h _ => fun n => by
      have ih := (GGroup.size_le h).1
      constructor <;> intro hb
      · cases hb with
        | inline hb =>
          have := ih _ hb
          simp only [Node.size, List.length_cons, List.length_append] at *; omega
      · cases hb
  | .choiceify _ h => fun n => by
      have ih := (GName.size_le h).2
      constructor <;> intro hb
      · cases hb with
        | choiceify _ hb =>
          have := ih _ hb
          simp only [Node.size, List.length_cons, List.length_append] at *; omega
      · cases hb
theorem GName.size_le {s : List Char} {n : String} {as : List Ty1} :
    GName x st s n as → 1 ≤ s.length ∧ ∀ ns, Flat1s re as ns → 2 + Node.sizes ns ≤ 2 * s.length
  | .plain h => by
      have hl := h.length_pos
      refine ⟨hl, fun ns hb => ?_⟩
      cases hb; simp only [Node.sizes]; omega
  | .generic h _ h' => by
      have hl := h.length_pos
      have ih := GArgs.size_le h'
      simp only [List.length_cons, List.length_append, List.length_nil]
      refine ⟨by omega, fun ns hb => ?_⟩
      have := ih _ hb
      omega
theorem GArgs.size_le {s : List Char} {as : List Ty1} :
    GArgs x st s as → ∀ ns, Flat1s re as ns → Node.sizes ns ≤ 2 * s.length
  | .one h _ => fun ns hb => by
      have ih := GTy1.size_le h
      cases hb with
      | cons hb hb' =>
        cases hb'
        have := ih _ hb
        simp only [Node.sizes, List.length_append] at *; omega
  | .cons h _ _ h' => fun ns hb => by
      have ih := GTy1.size_le h
      have ih' := GArgs.size_le h'
      cases hb with
      | cons hb hb' =>
        have := ih _ hb
        have := ih' _ hb'
        simp only [Node.sizes, List.length_cons, List.length_append] at *; omega
theorem GTy1.size_le {s : List Char} {t : Ty1} : GTy1 x st s t → ∀ n, Flat1 re t n → n.size ≤ 2 * s.length
  | .simple h => fun n hb => by
      have ih := GTy2.size_le h
      cases hb with | simple hb => exact (ih _).1 hb
  | .range h _ _ h' _ => fun n hb => by
      have ih := GTy2.size_le h
      have ih' := GTy2.size_le h'
      cases hb with
      | range hb hb' =>
        have := (ih _).2 hb
        have := (ih' _).2 hb'
        simp only [Node.size, List.length_cons, List.length_append] at *; omega
  | .rangeExcl h _ _ h' _ => fun n hb => by
      have ih := GTy2.size_le h
      have ih' := GTy2.size_le h'
      cases hb with
      | range hb hb' =>
        have := (ih _).2 hb
        have := (ih' _).2 hb'
        simp only [Node.size, List.length_cons, List.length_append] at *; omega
  | .control (op := op) h _ _ _ h' _ => fun n hb => by
      have ih := GTy2.size_le h
      have ih' := GTy2.size_le h'
      generalize hq : String.ofList op = q at hb
      cases hb with
      | ctl o hb hb' _ =>
        have := (ih _).1 hb
        have := (ih' _).1 hb'
        simp only [Node.size, List.length_cons, List.length_append] at *; omega
      | regexp _ _ _ => simp only [Node.size, List.length_cons, List.length_append]; omega
      | cbor _ hb' =>
        have := (ih' _).1 hb'
        simp only [Node.size, List.length_cons, List.length_append] at *; omega
theorem GTy.size_le {s : List Char} {t : Ty} :
    GTy x st s t → ∀ ns, Flat1s re t ns → Node.sizes ns + ns.length ≤ 2 * s.length + 1
  | .one h => fun ns hb => by
      have ih := GTy1.size_le h
      cases hb with
      | cons hb hb' =>
        cases hb'
        have := ih _ hb
        simp only [Node.sizes, List.length_cons, List.length_nil] at *; omega
  | .cons h _ _ h' => fun ns hb => by
      have ih := GTy1.size_le h
      have ih' := GTy.size_le h'
      cases hb with
      | cons hb hb' =>
        have := ih _ hb
        have := ih' _ hb'
        simp only [Node.sizes, List.length_cons, List.length_append] at *; omega
theorem GGroup.size_le {s : List Char} {g : Group} :
    GGroup x st s g → (∀ ns, FlatGroup re g ns → Node.sizes ns ≤ 2 * s.length) ∧
      ∀ os, FlatOptions re g os → Node.sizes os ≤ 2 * s.length + 1
  | .one h => by
      have ih := GChoice.size_le h
      refine ⟨fun ns hb => ?_, fun os hb => ?_⟩
      · cases hb with
        | one hb => exact ih _ hb
        | many h => exact absurd rfl h
      · cases hb with
        | cons hb hb' =>
          cases hb'
          have := ih _ hb
          simp only [Node.size, Node.sizes]; omega
  | .cons (s := s) (g := g) (w := w) (w' := w') (s' := s') (gs := gs) h _ _ h' => by
      have ih := GChoice.size_le h
      have ih' := (GGroup.size_le h').2
      have key : ∀ os, FlatOptions re (g :: gs) os →
          Node.sizes os + 1 ≤ 2 * (s ++ (w ++ ('/' :: '/' :: w')) ++ s').length := fun os hb => by
        cases hb with
        | cons hb hb' =>
          have := ih _ hb
          have := ih' _ hb'
          simp only [Node.size, Node.sizes, List.length_cons, List.length_append] at *; omega
      refine ⟨fun ns hb => ?_, fun os hb => ?_⟩
      · cases hb with
        | one _ => cases h'
        | many _ hb =>
          have := key _ hb
          simp only [Node.size, Node.sizes]; omega
      · have := key _ hb
        omega
theorem GChoice.size_le {s : List Char} {g : GrpChoice} :
    GChoice x st s g → ∀ ns, FlatEntries re g ns → Node.sizes ns ≤ 2 * s.length
  | .nil => fun ns hb => by cases hb; simp [Node.sizes]
  | .cons h _ h' _ => fun ns hb => by
      have ih := GEntry.size_le h
      have ih' := GChoice.size_le h'
      cases hb with
      | cons hb hb' =>
        have := ih _ hb
        have := ih' _ hb'
        simp only [Node.sizes, List.length_append] at *; omega
theorem GEntry.size_le {s : List Char} {e : GrpEnt} :
    GEntry x st s e → ∀ n, FlatEntry re e n → n.size ≤ 2 * s.length
  | .plain h => fun n hb => by
      have ih := GVal.size_le h
      cases hb with
      | mk hb ho => cases ho; exact ih _ hb
  | .occur h _ h' _ => fun n hb => by
      have hl := h.length_pos
      have ih := GVal.size_le h'
      cases hb with
      | mk hb ho =>
        cases ho
        have := ih _ hb
        simp only [Node.size, List.length_append] at *; omega
theorem GVal.size_le {s : List Char} {v : GrpEntVal} :
    GVal x st s v → ∀ n, FlatEntryVal re v n → n.size ≤ 2 * s.length
  | .bareword h _ _ h' => fun n hb => by
      have hl := h.length_pos
      have ih := GTy.size_le h'
      cases hb with
      | keyed hk hb ho =>
        have := ho.size_le (ih _ hb)
        cases hk
        simp only [Node.size, List.length_cons, List.length_append] at *; omega
  | .value h _ _ h' => fun n hb => by
      have hl := h.length_pos
      have ih := GTy.size_le h'
      cases hb with
      | keyed hk hb ho =>
        have := ho.size_le (ih _ hb)
        cases hk
        simp only [Node.size, List.length_cons, List.length_append] at *; omega
  | .type1 h _ _ h' => fun n hb => by
      have ihk := GTy1.size_le h
      have ih := GTy.size_le h'
      cases hb with
      | keyed hk hb ho =>
        have := ho.size_le (ih _ hb)
        cases hk with
        | type1 hk =>
          have := ihk _ hk
          simp only [Node.size, List.length_cons, List.length_append] at *; omega
  | .cut h _ _ _ h' => fun n hb => by
      have ihk := GTy1.size_le h
      have ih := GTy.size_le h'
      cases hb with
      | keyed hk hb ho =>
        have := ho.size_le (ih _ hb)
        cases hk with
        | type1 hk =>
          have := ihk _ hk
          simp only [Node.size, List.length_cons, List.length_append] at *; omega
  | .member h _ _ => fun n hb => by
      have ih := GTy.size_le h
      cases hb with
      | member hb ho =>
        have := ho.size_le (ih _ hb)
        simp only [List.length_append] at *; omega
  | .groupname h _ => fun n hb => by
      have hl := h.length_pos
      cases hb with
      | preludeName h => rw [prelude_size h]; omega
      | name _ => simp only [Node.size, Node.sizes]; omega
  | .parens _ h _ _ => fun n hb => by
      have ih := (GGroup.size_le h).1
      cases hb with
      | parens hb =>
        have := ih _ hb
        simp only [Node.size, List.length_cons, List.length_append] at *; omega
  | .comma _ h _ _ _ => fun n hb => by
      have ih := GTy.size_le h
      cases hb with
      | parens hb =>
        cases hb with
        | many h => exact absurd rfl h
        | one hb =>
          cases hb with
          | cons hb hb' =>
            cases hb'
            cases hb with
            | mk hb ho =>
              cases ho
              cases hb with
              | member hb ho =>
                have := ho.size_le (ih _ hb)
                simp only [Node.size, Node.sizes, List.length_cons, List.length_append] at *; omega
end

theorem GRule.size_le {s : List Char} {r : Ast.Rule} {p : String × RuleDef} (h : GRule x st s r) (hp : FlatRule re r p) :
    p.2.node.size + 4 ≤ 2 * s.length := by
  cases h with
  | mk hn _ _ _ hv =>
    have hl := hn.length_pos
    simp only [List.length_append, List.length_cons]
    cases hv with
    | type ht =>
      generalize hq : String.ofList _ = q at hp
      cases hp with
      | type hb ho => have := ho.size_le (GTy.size_le ht _ hb); simp only; omega
    | group he _ =>
      generalize hq : String.ofList _ = q at hp
      cases hp with
      | group hb => have := GEntry.size_le he _ hb; simp only; omega

end Cddl
