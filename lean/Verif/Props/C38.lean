import Verif.Proofs.ParseSlice

/-! # C38  The slice variants agree -/

namespace Cddl

/-- C38.  `slice_parse_cddl` fails with the same error as `parse_cddl`, or succeeds with the same rules in the same
order, each with a text. -/
theorem C38_parse (x : ParseExt) (s : String) :
    parseCddl x s = (sliceParseCddl x s).bind fun rs => .ok (rs.map Prod.fst) := by
  simp only [parseCddl, sliceParseCddl]
  rw [← cddlSlice_map]
  cases allConsuming (cddlSlice x) s.toList <;> rfl

/-- C38.  `slice_flatten` fails with the same error as `flatten` on the rules alone, or succeeds with the same
definitions in the same order, each with the text that came with its rule. -/
theorem C38_flatten (re : String → Bool) (cs : Ast.CddlSlice) :
    sliceFlatten re cs = (flatten re (cs.map Prod.fst)).bind fun t =>
      .ok (List.zipWith (fun p q => (p.1, p.2, q.2)) t cs) := by
  simp only [sliceFlatten, flatten]
  induction cs with
  | nil => rfl
  | cons c cs ih =>
    simp only [List.map_cons, collectRes, ih]
    cases flattenRule re c.1 with
    | ok q =>
      simp only [Res.bind]
      cases collectRes (flattenRule re) (cs.map Prod.fst) <;> rfl
    | _ => rfl

/-- C38.  From text to rules: `slice_flatten_from_str` and `flatten_from_str` agree. -/
theorem C38_from_str (x : ParseExt) (re : String → Bool) (s : String) :
    ((parseCddl x s).bind (flatten re) =
      ((sliceParseCddl x s).bind (sliceFlatten re)).bind fun t => .ok (t.map fun p => (p.1, p.2.1))) := by
  rw [C38_parse]
  cases sliceParseCddl x s with
  | ok rs =>
    simp only [Res.bind, C38_flatten]
    cases hf : flatten re (rs.map Prod.fst) with
    | ok t =>
      simp only
      have hlen : t.length = rs.length := by
        have := (flatten_length hf); simpa using this
      congr 1
      clear hf
      induction t generalizing rs with
      | nil => rfl
      | cons p t ih =>
        cases rs with
        | nil => cases hlen
        | cons r rs =>
          simp only [List.zipWith_cons_cons, List.map_cons]
          rw [← ih rs (by simpa using hlen)]
    | _ => rfl
  | _ => rfl

set_option maxRecDepth 100000 in
example : sliceParseCddl demoExt "a = [* b] ; first\nb = tstr" =
      .ok [(⟨"a", [], .assignType [.simple (.array [[.mk (some .zeroOrMore) (.member [.simple (.typename "b" [])])]])]⟩,
          "a = [* b]"), (⟨"b", [], .assignType [.simple (.typename "tstr" [])]⟩, "b = tstr")] ∧
    parseCddl demoExt "a = [* b] ; first\nb = tstr" =
      .ok [⟨"a", [], .assignType [.simple (.array [[.mk (some .zeroOrMore) (.member [.simple (.typename "b" [])])]])]⟩,
        ⟨"b", [], .assignType [.simple (.typename "tstr" [])]⟩] := by
  constructor <;> rfl

end Cddl
