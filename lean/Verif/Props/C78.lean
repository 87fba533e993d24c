import Verif.Proofs.Nesting
import Verif.Props.C39
import Verif.Props.C42
import Verif.Props.C47

/-! # C78  Schemas that are cut short or have a bracket wrong are refused -/

namespace Cddl

/-- C78.  In a text that is parsed, all brackets outside of literals and comments are closed, by brackets of their kind and in
good order, and no literal is left open. -/
theorem C78_complete {x : ParseExt} {s : String} {t : Ast.Cddl} (h : parseCddl x s = .ok t) : Complete s.toList := by
  rcases C47_sound h with h | h
  · exact .inl (h.nests [])
  · exact Complete.line (h.nests [])

/-- C78.  Any other text is refused by the parser. -/
theorem C78_refused {x : ParseExt} {s : String} (h : ¬ Complete s.toList) : ∃ e, parseCddl x s = .err (.parseError e) := by
  rcases C39_returns x s with ⟨t, ht⟩ | he
  · exact absurd (C78_complete ht) h
  · exact he

/-- C78.  So is what is left of a text that is cut off where a bracket is open, whatever the text was. -/
theorem C78_cut_bracket {x : ParseExt} {s : String} {p : Spot} {d : Char} {o : List Char}
    (h : openAt s.toList = some (p, d :: o)) : ∃ e, parseCddl x s = .err (.parseError e) :=
  C78_refused (by unfold Complete; rw [h]; simp)

/-- C78.  Or in a literal. -/
theorem C78_cut_literal {x : ParseExt} {s : String} {p : Spot} {o : List Char} (h : openAt s.toList = some (p, o))
    (hc : p ≠ .code) (hm : p ≠ .comment) : ∃ e, parseCddl x s = .err (.parseError e) :=
  C78_refused (by unfold Complete; rw [h]; simp [hc, hm])

/-! ## One bracket -/

/-- By how much the brackets opened outnumber those closed. -/
def surplus : Spot → List Char → Int
  | _, [] => 0
  | .code, c :: s =>
    (if c = '(' ∨ c = '[' ∨ c = '{' then 1 else if c = ')' ∨ c = ']' ∨ c = '}' then -1 else 0) + surplus (Spot.next .code c) s
  | p, c :: s => surplus (p.next c) s

theorem surplus_append : ∀ (a b : List Char) (p : Spot),
    surplus p (a ++ b) = surplus p a + surplus (a.foldl Spot.next p) b
  | [], b, p => by simp [surplus]
  | c :: a, b, p => by
    rw [List.cons_append, List.foldl_cons]
    cases p <;> simp only [surplus] <;> rw [surplus_append a b] <;> omega

theorem nest_next {p q : Spot} {o o' : List Char} {c : Char} (h : Spot.nest (p, o) c = some (q, o')) :
    q = p.next c ∧ (o'.length : Int) = o.length + surplus p [c] := by
  cases p with
  | code =>
    simp only [Spot.nest] at h
    split at h
    · next e => subst e; cases h; exact ⟨rfl, by simp [surplus]⟩
    split at h
    · next e => subst e; cases h; exact ⟨rfl, by simp [surplus]⟩
    split at h
    · next e => subst e; cases h; exact ⟨rfl, by simp [surplus]⟩
    split at h
    · next h1 h2 h3 e =>
      split at h
      · cases h
      · split at h
        · cases h
          refine ⟨by rcases e with rfl | rfl | rfl <;> rfl, ?_⟩
          simp only [surplus, h1, h2, h3, e, or_self, if_false, if_true, List.length_cons]
          omega
        · cases h
    · next h1 h2 h3 e =>
      cases h
      exact ⟨rfl, by simp [surplus, h1, h2, h3, e]⟩
  | _ => cases h; exact ⟨rfl, by simp [surplus]⟩

theorem nest_surplus : ∀ {s : List Char} {p q : Spot} {o o' : List Char},
    s.foldlM Spot.nest (p, o) = some (q, o') → q = s.foldl Spot.next p ∧ (o'.length : Int) = o.length + surplus p s
  | [], p, q, o, o', h => by cases h; exact ⟨rfl, by simp [surplus]⟩
  | c :: s, p, q, o, o', h => by
    rw [List.foldlM_cons] at h
    cases hn : Spot.nest (p, o) c with
    | none => rw [hn] at h; cases h
    | some r =>
      rw [hn] at h
      obtain ⟨p1, o1⟩ := r
      obtain ⟨e1, e2⟩ := nest_next hn
      subst e1
      obtain ⟨e3, e4⟩ := nest_surplus (s := s) h
      refine ⟨e3, ?_⟩
      rw [show c :: s = [c] ++ s from rfl, surplus_append, List.foldl_cons, List.foldl_nil]
      omega

theorem Complete.surplus {s : List Char} (h : Complete s) : surplus .code s = 0 := by
  rcases h with h | h
  · simpa using ((nest_surplus h).2).symm
  · simpa using ((nest_surplus h).2).symm

/-- One of the brackets. -/
def Bracket (c : Char) : Prop := c ∈ ['(', ')', '[', ']', '{', '}']

theorem surplus_plains {r : List Char} (h : ∀ c ∈ r, Plain c) : surplus .code r = 0 ∧ r.foldl Spot.next .code = .code := by
  have h1 := nest_surplus (Nests.plains h [])
  exact ⟨by simpa using h1.2.symm, h1.1.symm⟩

theorem surplus_bracket {c : Char} (h : Bracket c) (b : List Char) :
    surplus .code (c :: b) = surplus .code [c] + surplus .code b ∧ (surplus .code [c] = 1 ∨ surplus .code [c] = -1) := by
  unfold Bracket at h
  simp only [List.mem_cons, List.not_mem_nil, or_false] at h
  rcases h with rfl | rfl | rfl | rfl | rfl | rfl <;> simp [surplus, Spot.next]

/-- C78.  A bracket that is left out, or put in, or replaced by other signs that are neither brackets nor begin literals or
comments: of the two texts at most one is parsed. -/
theorem C78_one_bracket {x : ParseExt} {a b r : List Char} {c : Char} (ha : Outside a) (hc : Bracket c)
    (hr : ∀ d ∈ r, Plain d) {t t' : Ast.Cddl} (h : parseCddl x (String.ofList (a ++ c :: b)) = .ok t)
    (h' : parseCddl x (String.ofList (a ++ r ++ b)) = .ok t') : False := by
  have h1 := (C78_complete h).surplus
  have h2 := (C78_complete h').surplus
  rw [String.toList_ofList, surplus_append, ha] at h1
  rw [String.toList_ofList, List.append_assoc, surplus_append, ha, surplus_append, (surplus_plains hr).1,
    (surplus_plains hr).2] at h2
  have h3 := surplus_bracket hc b
  omega

/-- Two ways to read the rest of a text that differ in one bracket to be closed. -/
theorem nest_unique : ∀ {s : List Char} {p q q' : Spot} {u o : List Char} {d e : Char},
    s.foldlM Spot.nest (p, u ++ d :: o) = some (q, []) → s.foldlM Spot.nest (p, u ++ e :: o) = some (q', []) → d = e
  | [], p, q, q', u, o, d, e, h, _ => by
    cases u <;> cases h
  | c :: s, p, q, q', u, o, d, e, h, h' => by
    rw [List.foldlM_cons] at h h'
    have same : ∀ (p1 : Spot) (u1 : List Char), Spot.nest (p, u ++ d :: o) c = some (p1, u1 ++ d :: o) →
        Spot.nest (p, u ++ e :: o) c = some (p1, u1 ++ e :: o) → d = e := by
      intro p1 u1 h1 h2
      rw [h1] at h
      rw [h2] at h'
      exact nest_unique (s := s) h h'
    cases p with
    | code =>
      by_cases h1 : c = '('
      · exact same .code (')' :: u) (by simp [Spot.nest, h1]) (by simp [Spot.nest, h1])
      by_cases h2 : c = '['
      · exact same .code (']' :: u) (by simp [Spot.nest, h2]) (by simp [Spot.nest, h2])
      by_cases h3 : c = '{'
      · exact same .code ('}' :: u) (by simp [Spot.nest, h3]) (by simp [Spot.nest, h3])
      by_cases h4 : c = ')' ∨ c = ']' ∨ c = '}'
      · cases u with
        | nil =>
          have key : ∀ {z : Char} {q1 : Spot}, (do
              let init ← Spot.nest (Spot.code, [] ++ z :: o) c
              List.foldlM Spot.nest init s) = some (q1, []) → c = z := by
            intro z q1 hz
            apply Decidable.byContradiction
            intro hne
            have : Spot.nest (Spot.code, [] ++ z :: o) c = none := by simp [Spot.nest, h1, h2, h3, h4, hne]
            rw [this] at hz
            cases hz
          exact (key h).symm.trans (key h')
        | cons y u =>
          by_cases hy : c = y
          · exact same .code u (by simp [Spot.nest, h1, h2, h3, h4, hy] <;> grind) (by simp [Spot.nest, h1, h2, h3, h4, hy] <;> grind)
          · have : Spot.nest (Spot.code, y :: u ++ d :: o) c = none := by simp [Spot.nest, h1, h2, h3, h4, hy]
            rw [this] at h
            cases h
      · exact same (Spot.next .code c) u (by simp [Spot.nest, h1, h2, h3, h4]) (by simp [Spot.nest, h1, h2, h3, h4])
    | _ => exact same _ u rfl rfl

/-- C78.  A bracket replaced by another one: at most one of the two texts is parsed. -/
theorem C78_other_bracket {x : ParseExt} {a b : List Char} {c d : Char} (ha : Outside a) (hc : Bracket c) (hd : Bracket d)
    (hne : c ≠ d) {t t' : Ast.Cddl} (h : parseCddl x (String.ofList (a ++ c :: b)) = .ok t)
    (h' : parseCddl x (String.ofList (a ++ d :: b)) = .ok t') : False := by
  have ends : ∀ {z : Char} {t : Ast.Cddl}, parseCddl x (String.ofList (a ++ z :: b)) = .ok t →
      ∃ o q, a.foldlM Spot.nest (.code, []) = some (.code, o) ∧ (z :: b).foldlM Spot.nest (.code, o) = some (q, []) := by
    intro z t hz
    have : ∃ q, openAt (a ++ z :: b) = some (q, []) := by
      have := C78_complete hz
      rw [String.toList_ofList] at this
      exact this.elim (fun h => ⟨_, h⟩) (fun h => ⟨_, h⟩)
    obtain ⟨q, hq⟩ := this
    unfold openAt at hq
    rw [List.foldlM_append] at hq
    cases hn : a.foldlM Spot.nest (.code, []) with
    | none => rw [hn] at hq; cases hq
    | some r =>
      rw [hn] at hq
      obtain ⟨p, o⟩ := r
      have hp : p = .code := (nest_surplus hn).1.trans ha
      subst hp
      exact ⟨o, q, rfl, hq⟩
  obtain ⟨o, q, ho, hq⟩ := ends h
  obtain ⟨o', q', ho', hq'⟩ := ends h'
  rw [ho] at ho'
  cases ho'
  have s1 := (nest_surplus hq).2
  have s2 := (nest_surplus hq').2
  have b1 := surplus_bracket hc b
  have b2 := surplus_bracket hd b
  rw [b1.1] at s1
  rw [b2.1] at s2
  rw [List.foldlM_cons] at hq hq'
  -- both open, or both close
  have hs : surplus .code [c] = surplus .code [d] := by omega
  unfold Bracket at hc hd
  simp only [List.mem_cons, List.not_mem_nil, or_false] at hc hd
  have op : ∀ {z w : Char}, Spot.nest (.code, o) c = some (.code, z :: o) → Spot.nest (.code, o) d = some (.code, w :: o) →
      z = w := by
    intro z w h1 h2
    rw [h1] at hq
    rw [h2] at hq'
    exact nest_unique (u := []) hq hq'
  have cl : c = ')' ∨ c = ']' ∨ c = '}' → d = ')' ∨ d = ']' ∨ d = '}' → False := by
    intro h1 h2
    cases o with
    | nil =>
      have : Spot.nest (.code, []) c = none := by rcases h1 with rfl | rfl | rfl <;> rfl
      rw [this] at hq; cases hq
    | cons y o =>
      by_cases hy : c = y
      · have hy' : d ≠ y := fun e => hne (hy.trans e.symm)
        have : Spot.nest (.code, y :: o) d = none := by
          rcases h2 with rfl | rfl | rfl <;> simp [Spot.nest, hy']
        rw [this] at hq'; cases hq'
      · have : Spot.nest (.code, y :: o) c = none := by
          rcases h1 with rfl | rfl | rfl <;> simp [Spot.nest, hy]
        rw [this] at hq; cases hq
  rcases hc with rfl | rfl | rfl | rfl | rfl | rfl <;> rcases hd with rfl | rfl | rfl | rfl | rfl | rfl <;>
    first
    | exact hne rfl
    | exact cl (by decide) (by decide)
    | (have := op rfl rfl; revert this; decide)
    | (revert hs; decide)

/-! ## Examples -/

/-- A text cut off in an array in a map. -/
example (x : ParseExt) : ∃ e, parseCddl x "a = {k: [int, \"]}\" " = .err (.parseError e) :=
  C78_cut_bracket (p := .code) (d := ']') (o := ['}']) (by decide)

/-- A text cut off in a literal. -/
example (x : ParseExt) : ∃ e, parseCddl x "a = int b = \"tex" = .err (.parseError e) :=
  C78_cut_literal (p := .text) (o := []) (by decide) (by decide) (by decide)

/-- The bracket of the wrong kind. -/
example (x : ParseExt) : ∃ e, parseCddl x "a = [int, (tstr], any)" = .err (.parseError e) := C78_refused (by decide)

theorem c78_parses : ∃ t, parseCddl asciiExt (String.ofList ("a = {k: [int".toList ++ ']' :: "}".toList)) = .ok t := by
  have h : (match parseCddl asciiExt (String.ofList ("a = {k: [int".toList ++ ']' :: "}".toList)) with
    | .ok _ => true | _ => false) = true := by decide +kernel
  split at h
  · next t ht => exact ⟨t, ht⟩
  · cases h

/-- `a = {k: [int]}` without the inner closing bracket, with a comma for it, and with a parenthesis for it. -/
example (t : Ast.Cddl) : parseCddl asciiExt (String.ofList ("a = {k: [int".toList ++ [] ++ "}".toList)) ≠ .ok t ∧
    parseCddl asciiExt (String.ofList ("a = {k: [int".toList ++ [','] ++ "}".toList)) ≠ .ok t ∧
    parseCddl asciiExt (String.ofList ("a = {k: [int".toList ++ ')' :: "}".toList)) ≠ .ok t := by
  obtain ⟨t', h⟩ := c78_parses
  exact ⟨fun h' => C78_one_bracket (by decide) (by unfold Bracket; decide) (by decide) h h',
    fun h' => C78_one_bracket (by decide) (by unfold Bracket; decide) (by decide) h h',
    fun h' => C78_other_bracket (by decide) (by unfold Bracket; decide) (by unfold Bracket; decide) (by decide) h h'⟩

/-- Brackets in literals and comments do not count. -/
example : Complete "a = [\"(\", int] ; {".toList := by decide

end Cddl
