import Verif.Proofs.ParseSlice

/-! # C43  The whole input is parsed -/

namespace Cddl

/-- C43.  If parsing succeeds, the text is white space followed by the recorded rule texts in order, each derived by
the grammar as the recorded rule, with only white space and comments behind each.  A final comment may lack its
line ending, and then may belong to the text of the last rule (`Slices`). -/
theorem C43_covers {x : ParseExt} {s : String} {rs : Ast.CddlSlice} (h : sliceParseCddl x s = .ok rs) :
    ∃ w t, s.toList = w ++ t ∧ WS w ∧ Slices x t rs := by
  unfold sliceParseCddl at h
  cases hc : allConsuming (cddlSlice x) s.toList with
  | ok r a =>
    rw [hc] at h
    cases h
    simp only [allConsuming, cddlSlice, preceded] at hc
    obtain ⟨r1, t1, w, h1, h2, h3, -⟩ := ws_spec s.toList
    rw [h1] at hc
    simp only [PR.bind] at hc
    simp only [many1] at hc
    cases hp : terminated (pmap (fun p => (p.2, String.ofList p.1)) (recognizer (rule x))) ws r1 with
    | ok r2 p =>
      rw [hp] at hc
      simp only [PR.bind, many0] at hc
      cases hl : many0Loop (terminated (pmap (fun p => (p.2, String.ofList p.1)) (recognizer (rule x))) ws)
          (r2.length + 1) r2 with
      | ok r3 as =>
        rw [hl] at hc
        simp only [PR.bind] at hc
        split at hc
        · rename_i hz
          cases hc
          have hr3 := List.length_eq_zero_iff.1 hz
          rw [hr3] at hl
          have hrec := slices_loop _ _ _ hl
          have hr1 : r1 ≠ [] := by
            rintro rfl
            have hn := sound_rule (x := x) (n := 0) [] (Nat.le_refl _)
            simp only [terminated, pmap, recognizer] at hp
            revert hn hp
            cases rule x [] with
            | ok r a =>
              rintro - ⟨s, hs, hg⟩
              rcases readsRel.step hs with ⟨h, _⟩ | h
              · exact hg.ne h
              · exact absurd h (Nat.not_lt_zero _)
            | _ => intro hp; simp at hp
          rcases h2 with h2 | ⟨-, h2, -⟩
          · refine ⟨w, r1, h2, h3, ?_⟩
            rcases sliceRule_spec hp with ⟨s1, w1, hi, h4, h5, h6⟩ | ⟨hr2, h4⟩
            · obtain ⟨r0, t⟩ := p
              dsimp only at h4 h6
              subst h6
              rcases hrec with ⟨hr2, ha⟩ | hrec
              · rw [hi, hr2, ha, List.append_nil]; exact .last h4 (.inl h5)
              · rw [hi]; exact .cons h4 h5 hrec
            · rcases hrec with ⟨-, ha⟩ | hrec
              · rw [ha]; exact h4
              · rw [hr2] at hrec; exact absurd hrec (not_slices_nil _)
          · exact absurd h2 hr1
        · cases hc
      | _ => rw [hl] at hc; simp at hc
    | _ => rw [hp] at hc; simp at hc
  | _ => rw [hc] at h; cases h

/-- C43.  In terms of rules alone: what `parse_cddl` returns are the rules of such a decomposition of the text. -/
theorem C43_parse {x : ParseExt} {s : String} {c : Ast.Cddl} (h : parseCddl x s = .ok c) :
    ∃ w t rs, s.toList = w ++ t ∧ WS w ∧ Slices x t rs ∧ c = rs.map Prod.fst := by
  have hm := cddlSlice_map x s.toList
  cases hc : allConsuming (cddlSlice x) s.toList with
  | ok r a =>
    have hs : sliceParseCddl x s = .ok a := by unfold sliceParseCddl; rw [hc]; rfl
    obtain ⟨w, t, h1, h2, h3⟩ := C43_covers hs
    refine ⟨w, t, a, h1, h2, h3, ?_⟩
    unfold parseCddl at h
    rw [← hm, hc] at h
    cases h; rfl
  | _ => unfold parseCddl at h; rw [← hm, hc] at h; cases h

set_option maxRecDepth 100000 in
example : sliceParseCddl demoExt "; intro\na = b / c ;x\n\n d = (? e) ;y" =
    .ok [(⟨"a", [], .assignType [.simple (.typename "b" []), .simple (.typename "c" [])]⟩, "a = b / c"),
      (⟨"d", [], .assignGroup (.mk none (.parens [[.mk (some .optional) (.member [.simple (.typename "e" [])])]]))⟩,
        "d = (? e)")] := rfl

/-- C43.  A group entry keeps the white space behind it in its text, even an unterminated comment. -/
theorem C43_open_comment : sliceParseCddl demoExt "d = ? e ;y" =
    .ok [(⟨"d", [], .assignGroup (.mk (some .optional) (.member [.simple (.typename "e" [])]))⟩, "d = ? e ;y")] := by
  set_option maxRecDepth 100000 in rfl

end Cddl
