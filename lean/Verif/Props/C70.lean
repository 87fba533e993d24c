import Verif.Proofs.ParseDepth
import Verif.Props.C66

/-! # C70  How deep the parser recurses -/

namespace Cddl

open Ast (Ty Ty1 Ty2 MemberKeyVal GrpEntVal GrpEnt Group GrpChoice RuleVal)

variable {x : ParseExt}

/-- C70.  Two nested calls for each opening bracket, and one more, are enough: with that much room the result is the parser's. -/
theorem C70_enough {s : String} {k : Nat} (h : 2 * openers s.toList + 1 ≤ k) : parseCddlAt x k s = parseCddl x s := by
  have h1 := cddlWith_mono (parsers_le_rec (x := x) k) s.toList
  rw [cddlWith_rec] at h1
  have h2 := fine_cddlWith (x := x) h s.toList (Nat.le_refl _)
  rcases h1 with h1 | h1
  · rw [h1] at h2; exact h2.elim
  · simp only [parseCddlAt, parseCddl, allConsuming, h1]

/-- Less room never gives another result. -/
theorem C70_less (s : String) (k : Nat) : parseCddlAt x k s = .fuel ∨ parseCddlAt x k s = parseCddl x s := by
  have h1 := cddlWith_mono (parsers_le_rec (x := x) k) s.toList
  rw [cddlWith_rec] at h1
  rcases h1 with h1 | h1
  · exact .inl (by simp only [parseCddlAt, allConsuming, h1, PR.bind, PR.toRes])
  · exact .inr (by simp only [parseCddlAt, parseCddl, allConsuming, h1])

theorem grpent_oof {r : PRec} {i : List Char} (hi : NoOccur i) (h : r.type2 i = .oof) : grpent r i = .oof := by
  have h9 := occur_none hi
  simp [grpent, pmap, pair, h9, grpentVal, alt, grpentMember, terminated, type1, h]

theorem box_deep (bs : List Bool) : ∀ {k : Nat} {rest : List Char}, k ≤ 2 * bs.length →
    (parsers x k).type2 (boxText bs ++ rest) = .oof := by
  induction bs with
  | nil =>
    intro k rest hk
    obtain rfl : k = 0 := by simpa using hk
    rfl
  | cons b bs ih =>
    intro k rest hk
    rw [List.length_cons] at hk
    cases k with
    | zero => rfl
    | succ k =>
      have e : boxText (b :: bs) ++ rest = (brackets b).1 :: (boxText bs ++ (brackets b).2 :: rest) := by simp [boxText]
      have h2 : NoOccur (boxText bs ++ (brackets b).2 :: rest) := by
        cases bs with
        | nil => exact .inl (notHead_cons (by unfold Digit; decide) _)
        | cons b' bs => exact .inl (notHead_cons (by unfold Digit; cases b' <;> decide) _)
      have h14 : (parsers x k).group (boxText bs ++ (brackets b).2 :: rest) = .oof := by
        cases k with
        | zero => rfl
        | succ k =>
          have h3 := grpent_oof h2 (ih (k := k) (rest := (brackets b).2 :: rest) (by omega))
          show group (parsers x k) _ = _
          simp [group, pmap, pair, grpchoice, many0, many0Loop, terminated, h3]
      obtain ⟨t6, h6⟩ := ws_trim (boxText bs ++ (brackets b).2 :: rest)
      rw [((boxText_starts bs).app _).trim] at h6
      obtain ⟨⟨e10, h10⟩, -⟩ := open_err x (parsers x 0) (c := (brackets b).1) (by cases b <;> decide) (boxText bs ++ (brackets b).2 :: rest)
      obtain ⟨e11, h11⟩ := ident_err (i := (brackets b).1 :: (boxText bs ++ (brackets b).2 :: rest)) (notHead_cons (by unfold EAlpha; cases b <;> decide) _)
      obtain ⟨e12, h12⟩ := chr_err (c := '(') (i := (brackets b).1 :: (boxText bs ++ (brackets b).2 :: rest))
        (notHead_cons (by cases b <;> decide) _)
      rw [e]
      show type2 x (parsers x k) _ = _
      cases b with
      | true =>
        simp only [brackets] at *
        simp [type2, alt, pmap, h10, nameGenericP, pair, h11, type2Parens, type2Map,
          delimited, preceded, terminated, h12, chr_ok, h6, h14]
      | false =>
        simp only [brackets] at *
        obtain ⟨e13, h13⟩ := chr_err (c := '{') (i := '[' :: (boxText bs ++ ']' :: rest)) (notHead_cons (by decide) _)
        simp [type2, alt, pmap, h10, nameGenericP, pair, h11, type2Parens, type2Map,
          type2Array, delimited, preceded, terminated, h12, h13, chr_ok, h6, h14]

theorem openers_ruleA (bs : List Bool) : openers (ruleA (boxText bs)).toList = bs.length := by
  have h : openers (boxText bs) = bs.length := by
    induction bs with
    | nil => rfl
    | cons b bs ih =>
      have e : openers (boxText (b :: bs)) = openers (boxText bs) + 1 := by
        cases b <;> simp [boxText, openers, brackets, opensDeeper]
      rw [e, ih, List.length_cons]
  simp only [ruleA, String.toList_ofList]
  rw [← h]
  simp [openers, opensDeeper]

/-- C70.  That many are needed: for nested arrays and maps the parser gets through with `k` nested calls exactly when `k` is at least the
number of `C70_enough`. -/
theorem C70_needed (bs : List Bool) (k : Nat) :
    parseCddlAt x k (ruleA (boxText bs)) =
      if 2 * bs.length + 1 ≤ k then .ok [⟨"a", [], .assignType [.simple (boxTy bs)]⟩] else .fuel := by
  split
  · rename_i h
    rw [C70_enough (by rw [openers_ruleA]; exact h), ← C66_same, C66_brackets]
  · rename_i h
    have h1 := box_deep (x := x) bs (k := k) (rest := []) (by omega)
    rw [List.append_nil] at h1
    have e : (ruleA (boxText bs)).toList = 'a' :: '=' :: boxText bs := by simp [ruleA]
    have t1 : trim ('a' :: '=' :: boxText bs) = 'a' :: '=' :: boxText bs := (starter_ealpha (by unfold EAlpha; decide)).trim _
    have t2 : trim ('=' :: boxText bs) = '=' :: boxText bs := trim_noWs (noWs_punct (by decide) _)
    obtain ⟨_, w1⟩ := ws_trim ('a' :: '=' :: boxText bs)
    obtain ⟨_, w2⟩ := ws_trim ('=' :: boxText bs)
    obtain ⟨_, w3⟩ := ws_trim (boxText bs)
    rw [t1] at w1
    rw [t2] at w2
    rw [(boxText_starts bs).trim] at w3
    have h3 : tag "=" ('=' :: boxText bs) = .ok (boxText bs) ['='] := tag_ok "=" ['='] _ rfl
    have h4 := head_a (boxText bs)
    have h5 : pair (pair ident (opt genericParm)) (preceded ws (ruleValWith (parsers x k))) ('a' :: '=' :: boxText bs) = .oof := by
      simp only [pair] at h4 ⊢
      rw [h4]
      simp [preceded, w2, ruleValWith, h3, w3, alt, pmap, ty, sepList1, type1, pair, h1]
    simp only [parseCddlAt, e]
    simp [allConsuming, cddlWith, preceded, w1, many1, terminated, ruleWith, pmap, h5, PR.toRes]

/-- C70.  No fixed amount of stack is enough, although the text is in order: unlike the validator, the parser has no limit on its depth
(/repo/src/parser/mod.rs has none; compare /repo/src/validate.rs:46-56), so that it is the stack that overflows. -/
theorem C70_unbounded (k : Nat) : ∃ s : String, s.toList.length = 2 * k + 5 ∧ parseCddlAt x k s = .fuel ∧
    ∃ t, parseCddl x s = .ok [⟨"a", [], .assignType [.simple t]⟩] := by
  refine ⟨ruleA (boxText (List.replicate k false)), ?_, ?_, boxTy (List.replicate k false), ?_⟩
  · have h : ∀ k, (boxText (List.replicate k false)).length = 2 * k + 3 := by
      intro k
      induction k with
      | zero => rfl
      | succ k ih => simp [List.replicate_succ, boxText, ih]; omega
    simp [ruleA, h]
  · rw [C70_needed, if_neg (by rw [List.length_replicate]; omega)]
  · rw [← C66_same, C66_brackets]

/-! ## Examples -/

/-- Seven nested calls for three brackets, six are too few; a text without brackets takes one, and one with brackets that are not nested
gets through with the seven that it is granted. -/
example : openers "a=[{[int]}]".toList = 3 ∧ parseCddlAt demoExt 6 "a=[{[int]}]" = .fuel ∧
    parseCddlAt demoExt 7 "a=[{[int]}]" = parseCddl demoExt "a=[{[int]}]" :=
  ⟨by decide, by have := C70_needed (x := demoExt) [false, true, false] 6; exact this, C70_enough (by decide)⟩

example : parseCddlAt demoExt 1 "a=int" = parseCddl demoExt "a=int" := C70_enough (by decide)

example : parseCddlAt demoExt 7 "a=[[int],[int]]" = parseCddl demoExt "a=[[int],[int]]" := C70_enough (by decide)

end Cddl
