import Verif.Proofs.Calls
import Verif.Proofs.Blame
import Verif.Proofs.ParseImage2

/-!
# How many calls the parser makes at most

Each character of a text is worth two calls, and what stands behind a parenthesis or a quote is worth twice as much
(`weight`): it may be read a second time.

`Lin N i s t b D y`: the outcome `y` of a counting parser on `i` either is clean, that is, the calls are paid for by what
has been read, where the whole text is worth `N`; or it has cost at most `N`, and then what is left satisfies `D`, which
says that the parsers to come stop there.
-/

namespace Cddl

open Ast (Ty Ty1 Ty2 MemberKeyVal GrpEntVal GrpEnt Group GrpChoice RuleVal)

variable {α β γ : Type} {x : ParseExt} {rc : PCRec} {r : PRec}

/-- The price of a text: two calls for each character; what stands behind a parenthesis or a quote may be read twice. -/
def weight : List Char → Nat
  | [] => 0
  | c :: u => if c = '(' ∨ c = '\'' then 2 * weight u + 4 else weight u + 2

/-- The price of a text whose first character is taken as any other. -/
def lead : List Char → Nat
  | [] => 0
  | _ :: u => weight u + 2

theorem weight_cons (c : Char) (u : List Char) : weight u + 2 ≤ weight (c :: u) := by
  rw [weight]; split <;> omega

theorem lead_le (i : List Char) : lead i ≤ weight i := by
  cases i with
  | nil => exact Nat.le_refl _
  | cons c u => exact weight_cons c u

/-- A suffix costs less, by two for each character that is missing. -/
theorem _root_.List.IsSuffix.wl {i j : List Char} (h : j <:+ i) :
    j.length ≤ i.length ∧ weight j + 2 * i.length ≤ weight i + 2 * j.length := by
  refine ⟨h.length_le, ?_⟩
  obtain ⟨s, rfl⟩ := h
  induction s with
  | nil => exact Nat.le_refl _
  | cons c s ih =>
    have := weight_cons c (s ++ j)
    simp only [List.cons_append, List.length_cons]
    omega

theorem suffix_lead {i j : List Char} (h : j <:+ i) (hl : j.length + 1 ≤ i.length) : weight j + 2 ≤ lead i := by
  obtain ⟨s, rfl⟩ := h
  cases s with
  | nil => simp at hl; omega
  | cons c s =>
    have := (List.suffix_append s j).wl
    have h2 : lead (c :: s ++ j) = weight (s ++ j) + 2 := rfl
    rw [h2]
    simp at *
    omega

def Lin (N : Nat) (i : List Char) (s t b : Nat) (D : List Char → Prop) (y : PR α × Nat) : Prop :=
  match y.1 with
  | .ok r _ => r <:+ i ∧ (y.2 + s + weight r ≤ N + t ∨ (D r ∧ y.2 ≤ N + b))
  | _ => y.2 ≤ N + b

theorem Lin.mono {i : List Char} {N M s t b : Nat} {D : List Char → Prop} {y : PR α × Nat} (h : Lin N i s t b D y)
    (hN : N ≤ M) : Lin M i s t b D y := by
  revert h
  rcases y with ⟨y, n⟩
  cases y with
  | ok j a =>
    rintro ⟨h1, h2 | ⟨h2, h3⟩⟩
    · exact ⟨h1, .inl (by dsimp only at *; omega)⟩
    · exact ⟨h1, .inr ⟨h2, by dsimp only at *; omega⟩⟩
  | _ => intro h; simp only [Lin] at *; omega

theorem Lin.pmap {i : List Char} {N s t b : Nat} {D : List Char → Prop} {p : PC α} (f : α → β) (h : Lin N i s t b D (p i)) :
    Lin N i s t b D (pmapC f p i) := by
  unfold pmapC bindC
  revert h
  rcases p i with ⟨y, n⟩
  cases y <;> exact id

/-- Costs nothing and does not succeed. -/
def Skip (y : PR α × Nat) : Prop := ∃ e, y = (.err e, 0)

theorem Skip.pmap {i : List Char} {p : PC α} (f : α → β) (h : Skip (p i)) : Skip (pmapC f p i) := by
  obtain ⟨e, h⟩ := h
  exact ⟨e, by simp only [pmapC, bindC, h]⟩

theorem Skip.alt {i : List Char} {p q : PC α} (h : Skip (p i)) : altC p q i = q i := by
  obtain ⟨e, h⟩ := h
  simp only [altC, h, Nat.zero_add]

theorem Skip.preceded {i : List Char} {p : PC α} {q : PC β} (h : Skip (p i)) : Skip (precededC p q i) := by
  obtain ⟨e, h⟩ := h
  exact ⟨e, by simp only [precededC, bindC, h]⟩

theorem skip_free {i : List Char} {p : P α} {e} (h : p i = .err e) : Skip (free p i) := ⟨e, by simp only [free, h]⟩

theorem skip_chr {i : List Char} {c : Char} (h : NotHead (fun d => d = c) i) : Skip (free (chr c) i) := by
  obtain ⟨e, h⟩ := chr_err h
  exact skip_free h

theorem skip_tag {i : List Char} {t : String} (h : ∀ r, i ≠ t.toList ++ r) : Skip (free (tag t) i) := by
  obtain ⟨e, h⟩ := tag_err h
  exact skip_free h

theorem suffix_of {p : P α} (hb : Blames x true p) {i j : List Char} {a : α} (h : p i = .ok j a) : j <:+ i := by
  have := hb i
  rw [h] at this
  exact this

theorem trim_suffix (i : List Char) : trim i <:+ i := by
  obtain ⟨t, h⟩ := ws_trim i
  exact suffix_of (x := ⟨fun _ => none, fun _ => none, fun _ => none⟩) blames_ws h

/-- White space first. -/
theorem preceded_ws (q : PC β) (i : List Char) : precededC (free ws) q i = q (trim i) := by
  obtain ⟨t, h⟩ := ws_trim i
  simp only [precededC, bindC, free, h, Nat.zero_add]

theorem terminated_ws {p : PC α} {i j : List Char} {a : α} {n : Nat} (h : p i = (.ok j a, n)) :
    terminatedC p (free ws) i = (.ok (trim j) a, n) := by
  obtain ⟨t, hw⟩ := ws_trim j
  simp only [terminatedC, bindC, free, h, hw, Nat.add_zero]

/-- What a parser that calls `type2` needs to know about it. -/
structure LinRec (x : ParseExt) (rc : PCRec) (r : PRec) : Prop where
  same : SameRec rc r
  isRec : IsRec x r
  quick : ∀ i, NotHead TypeHead i → (rc.type2 i).2 ≤ 1
  value : ∀ i, (∀ e, value x i ≠ .err e) → (rc.type2 i).2 ≤ 1
  type2 : ∀ i, Lin (lead i) i 1 0 1 (fun j => ∃ u, j = '<' :: u) (rc.type2 i)
  group : ∀ i, trim i = i → Lin (weight i) i 0 1 2 (fun j => NotHead (fun c => c ∈ ")]}".toList) (trim j)) (rc.group i)

theorem LinRec.type2w (h : LinRec x rc r) (i : List Char) : Lin (weight i) i 1 0 1 (fun j => ∃ u, j = '<' :: u) (rc.type2 i) :=
  (h.type2 i).mono (lead_le i)

/-! ## Types -/

/-- Behind a type: an operator or generic arguments that could not be read. -/
def HaltType (i : List Char) : Prop := ∃ c u, trim i = c :: u ∧ (c = '<' ∨ c = '.')

theorem HaltType.not {i : List Char} (h : HaltType i) {q : Char → Prop} (hq : ¬ q '<' ∧ ¬ q '.') : NotHead q (trim i) := by
  obtain ⟨c, u, h, rfl | rfl⟩ := h <;> rw [h]
  · exact hq.1
  · exact hq.2

theorem haltType_lt (u : List Char) : HaltType ('<' :: u) :=
  ⟨'<', u, trim_noWs (notHead_cons (p := fun c => Blank c ∨ c = ';') (by unfold Blank; decide) u), .inl rfl⟩

theorem op_head {i j : List Char} {a : List Char} (h : alt (tag "...") (alt (tag "..") controlOp) i = .ok j a) :
    (∃ u, i = '.' :: u) ∧ j <:+ i := by
  constructor
  · rcases palt_ok h with h | ⟨-, h⟩
    · exact tag_head rfl h
    · rcases palt_ok h with h | ⟨-, h⟩
      · exact tag_head rfl h
      · obtain ⟨_, _, h, -⟩ := pbind_ok h
        exact tag_head rfl h
  · exact suffix_of (x := ⟨fun _ => none, fun _ => none, fun _ => none⟩) (blames_alt (blames_tag _)
      (blames_alt (blames_tag _) (blames_preceded (blames_tag _) blames_ident))) h

theorem lin_op (h : LinRec x rc r) {i : List Char} :
    Lin (weight i) i 1 0 1 HaltType (precededC (free ws) (rangeOrControlOpC rc) i) ∧
    ((∀ u, trim i ≠ '.' :: u) → ∃ e, precededC (free ws) (rangeOrControlOpC rc) i = (.err e, 0)) := by
  rw [preceded_ws]
  have ht := trim_suffix i
  have hl := ht.wl
  unfold rangeOrControlOpC
  rw [pairC]
  cases ho : alt (tag "...") (alt (tag "..") controlOp) (trim i) with
  | ok j a =>
    obtain ⟨⟨u, hu⟩, hj⟩ := op_head ho
    refine ⟨?_, fun hn => absurd hu (hn u)⟩
    simp only [free, ho, bindC, preceded_ws, Nat.zero_add, Nat.add_zero]
    have hs : trim j <:+ i := (trim_suffix j).trans (hj.trans ht)
    have hlj := hs.wl
    have := h.type2w (trim j)
    revert this
    rcases rc.type2 (trim j) with ⟨y, n⟩
    cases y with
    | ok j' b =>
      rintro ⟨h1, h2⟩
      refine ⟨h1.trans hs, ?_⟩
      have := h1.wl
      rcases h2 with h2 | ⟨⟨u, rfl⟩, h2⟩
      · left; dsimp only at *; omega
      · right; exact ⟨haltType_lt u, by dsimp only at *; omega⟩
    | _ => intro h; simp only [Lin] at *; omega
  | _ =>
    simp only [free, ho, bindC]
    first
    | exact ⟨by simp only [Lin]; omega, fun _ => ⟨_, rfl⟩⟩
    | (refine ⟨by simp only [Lin]; omega, fun hn => ?_⟩
       exfalso
       obtain ⟨e, he⟩ : ∃ e, alt (tag "...") (alt (tag "..") controlOp) (trim i) = .err e := by
         obtain ⟨e1, h1⟩ : ∃ e, tag "..." (trim i) = .err e := tag_err fun r hr => hn _ hr
         obtain ⟨e2, h2⟩ : ∃ e, tag ".." (trim i) = .err e := tag_err fun r hr => hn _ hr
         obtain ⟨e3, h3⟩ : ∃ e, tag "." (trim i) = .err e := tag_err fun r hr => hn _ hr
         exact ⟨e3, by simp only [alt, h1, h2, controlOp, preceded, h3, PR.bind]⟩
       rw [he] at ho
       cases ho)

theorem lin_type1 (h : LinRec x rc r) {i : List Char} {N : Nat} (h1 : Lin N i 1 0 1 (fun j => ∃ u, j = '<' :: u) (rc.type2 i)) :
    Lin N i 1 0 1 HaltType (type1C rc i) := by
  unfold type1C
  apply Lin.pmap
  rw [pairC]
  revert h1
  rcases rc.type2 i with ⟨y, n⟩
  cases y with
  | ok j a =>
    rintro ⟨h1, h2⟩
    have hl := h1.wl
    obtain ⟨ho, hn⟩ := lin_op h (i := j)
    simp only [bindC, optC]
    revert ho hn
    rcases precededC (free ws) (rangeOrControlOpC rc) j with ⟨y, m⟩
    rcases h2 with h2 | ⟨⟨u, rfl⟩, h2⟩
    · cases y with
      | ok j' b =>
        rintro ⟨h3, h4⟩ -
        refine ⟨h3.trans h1, ?_⟩
        rcases h4 with h4 | ⟨h4, h5⟩
        · left; dsimp only at *; omega
        · right; exact ⟨h4, by dsimp only at *; omega⟩
      | err e =>
        intro h3 hn
        refine ⟨h1, ?_⟩
        by_cases hd : ∃ u, trim j = '.' :: u
        · right
          obtain ⟨u, hu⟩ := hd
          exact ⟨⟨'.', u, hu, .inr rfl⟩, by simp only [Lin] at *; omega⟩
        · left
          obtain ⟨e', he⟩ := hn fun u hu => hd ⟨u, hu⟩
          cases he
          dsimp only at *; omega
      | _ => intro h3 _; simp only [Lin] at *; omega
    · intro _ hn
      have ht : trim ('<' :: u) = '<' :: u := trim_noWs (notHead_cons (p := fun c => Blank c ∨ c = ';') (by unfold Blank; decide) u)
      obtain ⟨e, he⟩ := hn fun v hv => by rw [ht] at hv; cases hv
      cases he
      exact ⟨h1, .inr ⟨haltType_lt u, by dsimp only at *; omega⟩⟩
  | _ => exact id

/-- Where no type can begin, a single call is made. -/
theorem quick_type1 (h : LinRec x rc r) {i : List Char} (hi : NotHead TypeHead i) :
    (type1C rc i).2 ≤ 1 ∧ ∀ j a, (type1C rc i).1 ≠ .ok j a := by
  have h1 := h.quick i hi
  have h2 : ∀ j a, (rc.type2 i).1 ≠ .ok j a := by
    intro j a e
    rw [h.same.1] at e
    rcases h.isRec with h' | ⟨r', h'⟩
    · rw [h'] at e; cases e
    · obtain ⟨e', he⟩ := type2_err (x := x) (r := r') hi
      rw [h', he] at e; cases e
  unfold type1C
  rw [pmapC_snd]
  revert h1 h2
  simp only [pmapC, pairC]
  rcases rc.type2 i with ⟨y, n⟩
  cases y with
  | ok j a => intro _ h2; exact absurd rfl (h2 j a)
  | _ => intro h1 _; exact ⟨h1, by simp [bindC]⟩

/-- Behind types and entries: nothing can be read here. -/
def Halt (i : List Char) : Prop :=
  ∃ c u, i = c :: u ∧ (c ∈ ".<:^=".toList ∨ (c = '/' ∧ NotHead (fun d => d = '/') u))

theorem HaltType.halt {i : List Char} (h : HaltType i) : Halt (trim i) := by
  obtain ⟨c, u, h, rfl | rfl⟩ := h
  · exact ⟨_, u, h, .inl (by decide)⟩
  · exact ⟨_, u, h, .inl (by decide)⟩

theorem Halt.not {i : List Char} (h : Halt i) {q : Char → Prop} (hq : ∀ c ∈ ".<:^=/".toList, ¬ q c) : NotHead q i := by
  obtain ⟨c, u, rfl, h | ⟨rfl, -⟩⟩ := h
  · have key : ∀ c ∈ ".<:^=".toList, c ∈ ".<:^=/".toList := by decide
    exact hq c (key c h)
  · exact hq '/' (by decide)

theorem Halt.trim {i : List Char} (h : Halt i) : trim i = i :=
  trim_noWs (h.not (q := fun c => Blank c ∨ c = ';') (by unfold Blank; decide))

/-- Behind a `/` that is no separator of types, or nothing. -/
theorem slash_cases (i : List Char) : (∃ u, trim i = '/' :: u ∧ slash i = .ok (Cddl.trim u) ['/']) ∨
    (NotHead (fun c => c = '/') (Cddl.trim i) ∧ ∃ e, slash i = .err e) := by
  by_cases hs : ∃ u, Cddl.trim i = '/' :: u
  · obtain ⟨u, hu⟩ := hs
    exact .inl ⟨u, hu, slash_run hu⟩
  · have : NotHead (fun c => c = '/') (Cddl.trim i) := by
      cases ht : Cddl.trim i with
      | nil => trivial
      | cons c u => rintro rfl; exact hs ⟨u, ht⟩
    exact .inr ⟨this, slash_none this⟩

theorem slash_notType (u : List Char) : NotHead TypeHead ('/' :: u) :=
  notHead_cons (p := TypeHead) (by unfold TypeHead Digit EAlpha; decide) u

/-- The type behind a `/` could not be read. -/
theorem slash_err (h : LinRec x rc r) {i u : List Char} {m : Nat} {e} (hu : trim i = '/' :: u)
    (hm : type1C rc (trim u) = (.err e, m)) (hb : m ≤ weight (trim u) + 1) :
    m ≤ 1 ∨ (Halt (trim i) ∧ m ≤ weight i + 1) := by
  by_cases hd : NotHead (fun d => d = '/') u
  · right
    have h1 := (trim_suffix u).wl
    have h2 := (trim_suffix i).wl
    rw [hu, List.length_cons] at h2
    have hw := weight_cons '/' u
    exact ⟨⟨_, u, hu, .inr ⟨rfl, hd⟩⟩, by omega⟩
  · left
    cases u with
    | nil => exact absurd trivial hd
    | cons d u =>
      have hd : d = '/' := Classical.byContradiction hd
      subst hd
      rw [trim_noWs (noWs_slash u)] at hm
      have := (quick_type1 h (slash_notType u)).1
      rw [hm] at this
      exact this

theorem lin_types (h : LinRec x rc r) : ∀ k i,
    Lin (weight i) i 0 1 1 (fun j => Halt (trim j)) (sepLoopC (free slash) (type1C rc) k i) := by
  intro k
  induction k with
  | zero => intro i; simp [sepLoopC, Lin]
  | succ k ih =>
    intro i
    rcases slash_cases i with ⟨u, hu, hs⟩ | ⟨-, e, hs⟩
    · have hsu : trim u <:+ i := by
        refine (trim_suffix u).trans (List.IsSuffix.trans ?_ (trim_suffix i))
        rw [hu]; exact List.suffix_cons _ _
      have hl : (trim u).length + 1 ≤ i.length ∧ weight (trim u) + 2 ≤ weight i := by
        have h1 := (trim_suffix u).wl
        have h2 := (trim_suffix i).wl
        rw [hu, List.length_cons] at h2
        have hw := weight_cons '/' u
        omega
      simp only [sepLoopC, free, hs, show ¬ (trim u).length = i.length by omega, if_false, Nat.zero_add]
      have h1 := lin_type1 h (h.type2w (trim u))
      rcases hy : type1C rc (trim u) with ⟨y, n⟩
      rw [hy] at h1
      cases y with
      | ok j a =>
        obtain ⟨h2, h3⟩ := h1
        have hlj := h2.wl
        dsimp only
        have h4 := ih j
        rcases h3 with h3 | ⟨hd, h3⟩
        · revert h4
          rcases sepLoopC (free slash) (type1C rc) k j with ⟨y, m⟩
          cases y with
          | ok j' b =>
            rintro ⟨h5, h6⟩
            refine ⟨h5.trans (h2.trans hsu), ?_⟩
            simp only [bindC]
            rcases h6 with h6 | ⟨h6, h7⟩
            · left; dsimp only at *; omega
            · right; exact ⟨h6, by dsimp only at *; omega⟩
          | _ => intro h5; simp only [Lin, bindC] at *; omega
        · -- the type was not read to its end: no separator follows
          obtain ⟨e, he⟩ := slash_none (hd.not (by decide))
          cases k with
          | zero => simp only [Lin, bindC, sepLoopC] at *; omega
          | succ k =>
            simp only [sepLoopC, free, he, bindC]
            refine ⟨h2.trans hsu, .inr ⟨hd.halt, ?_⟩⟩
            dsimp only at *; omega
      | err e =>
        refine ⟨List.suffix_refl i, ?_⟩
        rcases slash_err h hu hy h1 with h3 | h3
        · left; dsimp only; omega
        · right; exact h3
      | _ => simp only [Lin] at *; omega
    · simp only [sepLoopC, free, hs]
      exact ⟨List.suffix_refl i, .inl (by dsimp only; omega)⟩

theorem lin_ty (h : LinRec x rc r) {i : List Char} {N : Nat} (h1 : Lin N i 1 0 1 (fun j => ∃ u, j = '<' :: u) (rc.type2 i)) :
    Lin N i 0 0 1 (fun j => Halt (trim j)) (tyC rc i) := by
  unfold tyC sepList1C
  replace h1 := lin_type1 h h1
  revert h1
  rcases type1C rc i with ⟨y, n⟩
  cases y with
  | ok j a =>
    rintro ⟨h2, h3⟩
    have hlj := h2.wl
    have h4 := lin_types h (j.length + 1) j
    rcases h3 with h3 | ⟨hd, h3⟩
    · simp only [bindC]
      revert h4
      rcases sepLoopC (free slash) (type1C rc) (j.length + 1) j with ⟨y, m⟩
      cases y with
      | ok j' b =>
        rintro ⟨h5, h6⟩
        refine ⟨h5.trans h2, ?_⟩
        rcases h6 with h6 | ⟨h6, h7⟩
        · left; dsimp only at *; omega
        · right; exact ⟨h6, by dsimp only at *; omega⟩
      | _ => intro h5; simp only [Lin] at *; omega
    · obtain ⟨e, he⟩ := slash_none (hd.not (by decide))
      simp only [sepLoopC, free, he, bindC]
      exact ⟨h2, .inr ⟨hd.halt, by dsimp only at *; omega⟩⟩
  | _ => intro h5; simp only [Lin, bindC] at *; omega

theorem quick_ty (h : LinRec x rc r) {i : List Char} (hi : NotHead TypeHead i) : (tyC rc i).2 ≤ 1 := by
  obtain ⟨h1, h2⟩ := quick_type1 h hi
  unfold tyC sepList1C
  revert h1 h2
  rcases type1C rc i with ⟨y, n⟩
  cases y with
  | ok j a => intro _ h2; exact absurd rfl (h2 j a)
  | _ => intro h1 _; exact h1

theorem lin_moreTypes (h : LinRec x rc r) : ∀ k i,
    Lin (weight i) i 0 1 1 (fun j => Halt (trim j)) (many0LoopC (precededC (free slash) (type1C rc)) k i) := by
  intro k
  induction k with
  | zero => intro i; simp [many0LoopC, Lin]
  | succ k ih =>
    intro i
    rcases slash_cases i with ⟨u, hu, hs⟩ | ⟨-, e, hs⟩
    · have hsu : trim u <:+ i := by
        refine (trim_suffix u).trans (List.IsSuffix.trans ?_ (trim_suffix i))
        rw [hu]; exact List.suffix_cons _ _
      have hl : (trim u).length + 1 ≤ i.length ∧ weight (trim u) + 2 ≤ weight i := by
        have h1 := (trim_suffix u).wl
        have h2 := (trim_suffix i).wl
        rw [hu, List.length_cons] at h2
        have hw := weight_cons '/' u
        omega
      have hp : precededC (free slash) (type1C rc) i = type1C rc (trim u) := by
        simp only [precededC, bindC, free, hs, Nat.zero_add]
      simp only [many0LoopC, hp]
      have h1 := lin_type1 h (h.type2w (trim u))
      rcases hy : type1C rc (trim u) with ⟨y, n⟩
      rw [hy] at h1
      cases y with
      | ok j a =>
        obtain ⟨h2, h3⟩ := h1
        have hlj := h2.wl
        dsimp only
        simp only [show ¬ j.length = i.length by omega, if_false]
        have h4 := ih j
        rcases h3 with h3 | ⟨hd, h3⟩
        · revert h4
          rcases many0LoopC (precededC (free slash) (type1C rc)) k j with ⟨y, m⟩
          cases y with
          | ok j' b =>
            rintro ⟨h5, h6⟩
            refine ⟨h5.trans (h2.trans hsu), ?_⟩
            simp only [bindC]
            rcases h6 with h6 | ⟨h6, h7⟩
            · left; dsimp only at *; omega
            · right; exact ⟨h6, by dsimp only at *; omega⟩
          | _ => intro h5; simp only [Lin, bindC] at *; omega
        · obtain ⟨e, he⟩ := slash_none (hd.not (by decide))
          cases k with
          | zero => simp only [Lin, bindC, many0LoopC] at *; omega
          | succ k =>
            simp only [many0LoopC, precededC, free, he, bindC]
            refine ⟨h2.trans hsu, .inr ⟨hd.halt, ?_⟩⟩
            dsimp only at *; omega
      | err e =>
        refine ⟨List.suffix_refl i, ?_⟩
        rcases slash_err h hu hy h1 with h3 | h3
        · left; dsimp only; omega
        · right; exact h3
      | _ => simp only [Lin] at *; omega
    · simp only [many0LoopC, precededC, bindC, free, hs]
      exact ⟨List.suffix_refl i, .inl (by dsimp only; omega)⟩

/-! ## Names -/

theorem comma_cases (i : List Char) : (∃ u, ∃ c : List Char × List Char, i = ',' :: u ∧ pair (tag ",") ws i = .ok (trim u) c) ∨
    ∃ e, pair (tag ",") ws i = .err e := by
  by_cases hs : ∃ u, i = ',' :: u
  · obtain ⟨u, rfl⟩ := hs
    obtain ⟨t, ht⟩ := ws_trim u
    have h1 : tag "," (',' :: u) = .ok u [','] := tag_ok "," [','] _ rfl
    exact .inl ⟨u, ([','], t), rfl, by simp only [pair, h1, ht, PR.bind]⟩
  · obtain ⟨e, he⟩ : ∃ e, tag "," i = .err e := tag_err fun u hu => hs ⟨u, hu⟩
    exact .inr ⟨e, by simp only [pair, he, PR.bind]⟩

/-- Behind an argument that was not read to its end. -/
def HaltArg (i : List Char) : Prop := ∃ c u, i = c :: u ∧ (c = '<' ∨ c = '.')

theorem lin_arg (h : LinRec x rc r) {i : List Char} :
    Lin (weight i) i 1 0 1 HaltArg (terminatedC (type1C rc) (free ws) i) := by
  have h1 := lin_type1 h (h.type2w i)
  rcases hy : type1C rc i with ⟨y, n⟩
  rw [hy] at h1
  cases y with
  | ok j a =>
    rw [terminated_ws hy]
    obtain ⟨h2, h3⟩ := h1
    have := (trim_suffix j).wl
    refine ⟨(trim_suffix j).trans h2, ?_⟩
    rcases h3 with h3 | ⟨h3, h4⟩
    · left; dsimp only at *; omega
    · right; exact ⟨h3, h4⟩
  | _ => simp only [terminatedC, bindC, hy]; exact h1

theorem comma_none {c : Char} {v : List Char} (hc : c = '<' ∨ c = '.') :
    ∃ e, free (pair (tag ",") ws) (c :: v) = (.err e, 0) := by
  obtain ⟨e, he⟩ : ∃ e, tag "," (c :: v) = .err e := tag_err fun u hu => by
    cases hu; rcases hc with hc | hc <;> cases hc
  exact ⟨e, by simp only [free, pair, he, PR.bind]⟩

theorem lin_args {q : PC α} (hq : ∀ i, Lin (weight i) i 1 0 1 HaltArg (q i)) : ∀ k i,
    Lin (weight i) i 0 0 1 (NotHead fun c => c = '>') (sepLoopC (free (pair (tag ",") ws)) q k i) := by
  intro k
  induction k with
  | zero => intro i; simp [sepLoopC, Lin]
  | succ k ih =>
    intro i
    rcases comma_cases i with ⟨u, c, rfl, hs⟩ | ⟨e, hs⟩
    · have hsu : trim u <:+ ',' :: u := (trim_suffix u).trans (List.suffix_cons _ _)
      have hl := (trim_suffix u).wl
      have hlu : (',' :: u).length = u.length + 1 ∧ weight u + 2 ≤ weight (',' :: u) := ⟨rfl, weight_cons _ _⟩
      have hs' : free (pair (tag ",") ws) (',' :: u) = (.ok (trim u) c, 0) := by rw [free, hs]
      simp only [sepLoopC, hs', show ¬ (trim u).length = (',' :: u).length by omega, if_false, Nat.zero_add]
      have h1 := hq (trim u)
      revert h1
      rcases q (trim u) with ⟨y, n⟩
      intro h1
      cases y with
      | ok j a =>
        obtain ⟨h2, h3⟩ := h1
        have hlj := h2.wl
        dsimp only
        have h4 := ih j
        rcases h3 with h3 | ⟨hd, h3⟩
        · revert h4
          rcases sepLoopC (free (pair (tag ",") ws)) q k j with ⟨y, m⟩
          cases y with
          | ok j' b =>
            rintro ⟨h5, h6⟩
            refine ⟨h5.trans (h2.trans hsu), ?_⟩
            simp only [bindC]
            rcases h6 with h6 | ⟨h6, h7⟩
            · left; dsimp only at *; omega
            · right; exact ⟨h6, by dsimp only at *; omega⟩
          | _ => intro h5; simp only [Lin, bindC] at *; omega
        · obtain ⟨c, v, rfl, hc⟩ := hd
          obtain ⟨e, he⟩ := comma_none (v := v) hc
          cases k with
          | zero => simp only [Lin, bindC, sepLoopC] at *; omega
          | succ k =>
            simp only [sepLoopC, he, bindC]
            refine ⟨h2.trans hsu, .inr ⟨?_, by dsimp only at *; omega⟩⟩
            rintro rfl
            rcases hc with hc | hc <;> cases hc
      | err e =>
        refine ⟨List.suffix_refl _, .inr ⟨notHead_cons (p := fun c => c = '>') (by decide) _, ?_⟩⟩
        simp only [Lin] at h1
        dsimp only; omega
      | _ => simp only [Lin] at *; omega
    · simp only [sepLoopC, free, hs]
      exact ⟨List.suffix_refl i, .inl (by dsimp only; omega)⟩

theorem lin_argList {q : PC α} (hq : ∀ i, Lin (weight i) i 1 0 1 HaltArg (q i)) {i : List Char} :
    Lin (weight i) i 0 0 1 (NotHead fun c => c = '>') (sepList1C (free (pair (tag ",") ws)) q i) := by
  unfold sepList1C
  have h1 := hq i
  revert h1
  rcases q i with ⟨y, n⟩
  cases y with
  | ok j a =>
    rintro ⟨h2, h3⟩
    have hlj := h2.wl
    have h4 := lin_args hq (j.length + 1) j
    rcases h3 with h3 | ⟨hd, h3⟩
    · simp only [bindC]
      revert h4
      rcases sepLoopC (free (pair (tag ",") ws)) q (j.length + 1) j with ⟨y, m⟩
      cases y with
      | ok j' b =>
        rintro ⟨h5, h6⟩
        refine ⟨h5.trans h2, ?_⟩
        rcases h6 with h6 | ⟨h6, h7⟩
        · left; dsimp only at *; omega
        · right; exact ⟨h6, by dsimp only at *; omega⟩
      | _ => intro h5; simp only [Lin] at *; omega
    · obtain ⟨c, v, rfl, hc⟩ := hd
      obtain ⟨e, he⟩ := comma_none (v := v) hc
      simp only [sepLoopC, he, bindC]
      refine ⟨h2, .inr ⟨?_, by dsimp only at *; omega⟩⟩
      rintro rfl
      rcases hc with hc | hc <;> cases hc
  | _ => intro h5; simp only [Lin, bindC] at *; omega

theorem skip_generic {i : List Char} (hi : ∀ u, i ≠ '<' :: u) : Skip (genericArgC rc i) := by
  obtain ⟨e, he⟩ : ∃ e, tag "<" i = .err e := tag_err fun u hu => hi u hu
  exact Skip.preceded (skip_free (e := e) (by simp only [pair, he, PR.bind]))

theorem lin_generic (h : LinRec x rc r) {u : List Char} :
    Lin (weight ('<' :: u)) ('<' :: u) 4 0 0 (fun _ => False) (genericArgC rc ('<' :: u)) := by
  have hsu : trim u <:+ '<' :: u := (trim_suffix u).trans (List.suffix_cons _ _)
  have hl := (trim_suffix u).wl
  have hlu : ('<' :: u).length = u.length + 1 ∧ weight u + 2 ≤ weight ('<' :: u) := ⟨rfl, weight_cons _ _⟩
  have h2 := lin_argList (fun i => lin_arg h (i := i)) (i := trim u)
  unfold genericArgC
  revert h2
  generalize sepList1C (free (pair (tag ",") ws)) (terminatedC (type1C rc) (free ws)) = q
  obtain ⟨t, ht⟩ := ws_trim u
  have h1 : tag "<" ('<' :: u) = .ok u ['<'] := tag_ok "<" ['<'] _ rfl
  simp only [delimitedC, precededC, terminatedC, bindC, free, pair, h1, ht, PR.bind, Nat.zero_add, Nat.add_zero]
  rcases q (trim u) with ⟨y, n⟩
  cases y with
  | ok j a =>
    rintro ⟨h3, h4⟩
    have hlj := h3.wl
    dsimp only
    rcases h4 with h4 | ⟨h4, h5⟩
    · cases hg : tag ">" j with
      | ok j' c =>
        obtain ⟨v, rfl⟩ := tag_head (c := '>') rfl hg
        have hv : tag ">" ('>' :: v) = .ok v ['>'] := tag_ok ">" ['>'] _ rfl
        rw [hv] at hg
        cases hg
        have hw := weight_cons '>' j'
        refine ⟨(List.suffix_cons _ _).trans (h3.trans hsu), .inl ?_⟩
        simp only [List.length_cons] at *
        omega
      | _ => simp only [Lin] at *; omega
    · obtain ⟨e, he⟩ : ∃ e, tag ">" j = .err e := tag_err fun v hv => by rw [hv] at h4; exact h4 rfl
      simp only [he, Lin]
      dsimp only at h5
      omega
  | _ => intro h3; simp only [Lin] at *; omega

theorem ident_lt {i j s : List Char} (h : ident i = .ok j s) : j <:+ i ∧ j.length + 1 ≤ i.length := by
  refine ⟨suffix_of (x := ⟨fun _ => none, fun _ => none, fun _ => none⟩) blames_ident h, ?_⟩
  have := sound_ident (n := i.length) i (Nat.le_refl _)
  rw [h] at this
  obtain ⟨s', h1, rfl, h2⟩ := this
  exact exactRel.lt h1 h2.starts.ne

theorem lin_name (h : LinRec x rc r) {i : List Char} :
    Lin (lead i) i 2 0 0 (fun j => ∃ u, j = '<' :: u) (nameGenericC rc i) ∧ ∀ e n, nameGenericC rc i = (.err e, n) → n = 0 := by
  suffices hs : Lin (lead i) i 2 0 0 (fun j => ∃ u, j = '<' :: u) (pairC (free ident) (optC (genericArgC rc)) i) ∧
      ∀ e n, pairC (free ident) (optC (genericArgC rc)) i = (.err e, n) → n = 0 by
    refine ⟨hs.1.pmap _, fun e n he => ?_⟩
    have h2 := hs.2
    unfold nameGenericC pmapC at he
    revert he h2
    rcases pairC (free ident) (optC (genericArgC rc)) i with ⟨y, m⟩
    cases y with
    | err e' => intro he h2; cases he; exact h2 _ _ rfl
    | _ => intro he _; cases he
  cases hid : ident i with
  | ok j s =>
    obtain ⟨h1, h2⟩ := ident_lt hid
    have hlead := suffix_lead h1 h2
    have he : pairC (free ident) (optC (genericArgC rc)) i =
        bindC (optC (genericArgC rc) j) fun r' b => (.ok r' (s, b), 0) := by
      rw [pairC, bindC]; simp only [free, hid, Nat.zero_add]
    rw [he]
    by_cases hlt : ∃ u, j = '<' :: u
    · obtain ⟨u, rfl⟩ := hlt
      have h3 := lin_generic h (u := u)
      have hlead := suffix_lead h1 h2
      revert h3
      unfold optC
      rcases genericArgC rc ('<' :: u) with ⟨y, n⟩
      cases y with
      | ok j' b =>
        rintro ⟨h3, h4 | ⟨h4, -⟩⟩
        · exact ⟨⟨h3.trans h1, .inl (by simp only [bindC]; dsimp only at h4; omega)⟩, by intro e n he; cases he⟩
        · exact h4.elim
      | err e =>
        intro h3
        refine ⟨⟨h1, .inr ⟨⟨u, rfl⟩, by simp only [bindC]; simp only [Lin] at h3; omega⟩⟩, by intro e n he; cases he⟩
      | _ => intro h3; exact ⟨by simp only [Lin, bindC] at *; omega, by intro e n he; cases he⟩
    · obtain ⟨e, he⟩ := skip_generic (rc := rc) fun u hu => hlt ⟨u, hu⟩
      simp only [optC, he, bindC]
      exact ⟨⟨h1, .inl (by dsimp only; omega)⟩, by intro e n he; cases he⟩
  | _ =>
    simp only [pairC, bindC, free, hid]
    exact ⟨by simp only [Lin]; omega, by intro e n he; cases he <;> rfl⟩

/-! ## Entries -/

theorem lin_keyTail (h : LinRec x rc r) {u : List Char} :
    Lin (weight (':' :: u)) (':' :: u) 0 0 0 (fun j => Halt (trim j)) (memberkeyTailC rc (':' :: u)) := by
  have hsu : trim u <:+ ':' :: u := (trim_suffix u).trans (List.suffix_cons _ _)
  have hl := (trim_suffix u).wl
  have hlu : (':' :: u).length = u.length + 1 ∧ weight u + 2 ≤ weight (':' :: u) := ⟨rfl, weight_cons _ _⟩
  obtain ⟨t, ht⟩ := ws_trim u
  have h1 : tag ":" (':' :: u) = .ok u [':'] := tag_ok ":" [':'] _ rfl
  have h2 := lin_ty h (h.type2w (trim u))
  unfold memberkeyTailC
  simp only [precededC, bindC, free, pair, h1, ht, PR.bind, Nat.zero_add]
  revert h2
  rcases tyC rc (trim u) with ⟨y, n⟩
  cases y with
  | ok j a =>
    rintro ⟨h3, h4⟩
    refine ⟨h3.trans hsu, ?_⟩
    rcases h4 with h4 | ⟨h4, h5⟩
    · left; dsimp only at *; omega
    · right; exact ⟨h4, by dsimp only at *; omega⟩
  | _ => intro h3; simp only [Lin] at *; omega

theorem skip_keyTail {i : List Char} (hi : NotHead (fun c => c = ':') i) : Skip (memberkeyTailC rc i) := by
  obtain ⟨e, he⟩ : ∃ e, tag ":" i = .err e := tag_err fun u hu => by rw [hu] at hi; exact hi rfl
  exact Skip.preceded (skip_free (e := e) (by simp only [pair, he, PR.bind]))

theorem lin_arrow (h : LinRec x rc r) {i : List Char} :
    Lin (weight i) i 0 0 1 (fun j => Halt (trim j)) (arrowTailC rc i) := by
  unfold arrowTailC pairC
  cases ho : opt (terminated (tag "^") ws) i with
  | ok j o =>
    have hj : j <:+ i := suffix_of (x := ⟨fun _ => none, fun _ => none, fun _ => none⟩)
      (blames_opt (blames_terminated (blames_tag _) blames_ws)) ho
    have hlj := hj.wl
    cases hg : tag "=>" j with
    | ok j2 c =>
      have hj2 : j2 <:+ j := suffix_of (x := ⟨fun _ => none, fun _ => none, fun _ => none⟩) (blames_tag _) hg
      have hl2 := hj2.wl
      have hs : trim j2 <:+ i := (trim_suffix j2).trans (hj2.trans hj)
      have hl := (trim_suffix j2).wl
      have h2 := lin_ty h (h.type2w (trim j2))
      have e1 : bindC (free (opt (terminated (tag "^") ws)) i) (fun r a =>
          bindC (precededC (free (tag "=>")) (precededC (free ws) (tyC rc)) r) fun r' b =>
            ((.ok r' (a, b) : PR (Option (List Char) × Ty)), 0)) =
          bindC (tyC rc (trim j2)) fun r' b => (.ok r' (o, b), 0) := by
        have e2 : precededC (free (tag "=>")) (precededC (free ws) (tyC rc)) j = tyC rc (trim j2) := by
          rw [precededC, bindC]
          simp only [free, hg, Nat.zero_add]
          exact preceded_ws _ _
        rw [bindC]
        simp only [free, ho, Nat.zero_add]
        rw [← e2]
      rw [e1]
      revert h2
      rcases tyC rc (trim j2) with ⟨y, n⟩
      cases y with
      | ok j' a =>
        rintro ⟨h3, h4⟩
        refine ⟨h3.trans hs, ?_⟩
        simp only [bindC]
        rcases h4 with h4 | ⟨h4, h5⟩
        · left; dsimp only at *; omega
        · right; exact ⟨h4, by dsimp only at *; omega⟩
      | _ => intro h3; simp only [Lin, bindC] at *; omega
    | _ => simp only [bindC, free, precededC, ho, hg, Lin]; omega
  | _ => simp only [bindC, free, ho, Lin]; omega

theorem skip_arrow {i : List Char} (hi : NotHead (fun c => c = '^' ∨ c = '=') i) : Skip (arrowTailC rc i) := by
  obtain ⟨e1, h1⟩ : ∃ e, tag "^" i = .err e := tag_err fun u hu => by rw [hu] at hi; exact hi (.inl rfl)
  obtain ⟨e2, h2⟩ : ∃ e, tag "=>" i = .err e := tag_err fun u hu => by rw [hu] at hi; exact hi (.inr rfl)
  exact ⟨e2, by simp only [arrowTailC, pairC, bindC, free, precededC, opt, terminated, h1, h2, PR.bind, Nat.zero_add]⟩

/-- No separator follows. -/
theorem moreTypes_none {i : List Char} (ht : trim i = i) (hi : NotHead (fun c => c = '/') i) :
    many0C (precededC (free slash) (type1C rc)) i = (.ok i [], 0) := by
  rw [← ht] at hi
  obtain ⟨e, he⟩ := slash_none hi
  simp only [many0C, many0LoopC, precededC, free, he, bindC]

theorem memberRest_none (t : Ty1) {i : List Char} (ht : trim i = i) (hi : NotHead (fun c => c ∈ "^=/".toList) i) :
    memberRestC rc t i = (.ok i (.member [t]), 0) := by
  obtain ⟨e, he⟩ := skip_arrow (rc := rc) (i := i) (hi.imp fun c hc => by rcases hc with rfl | rfl <;> decide)
  have h2 := moreTypes_none (rc := rc) ht (hi.imp fun c hc => by rw [hc]; decide)
  simp only [memberRestC, he, ifOkC, h2, Nat.zero_add]

theorem lin_memberRest (h : LinRec x rc r) (t : Ty1) {i : List Char} (ht : trim i = i) :
    Lin (weight i) i 0 1 1 (fun j => Halt (trim j)) (memberRestC rc t i) := by
  by_cases ha : NotHead (fun c => c = '^' ∨ c = '=') i
  · obtain ⟨e, he⟩ := skip_arrow (rc := rc) ha
    have h2 := lin_moreTypes h (i.length + 1) i
    simp only [memberRestC, he, ifOkC, Nat.zero_add, many0C]
    revert h2
    rcases many0LoopC (precededC (free slash) (type1C rc)) (i.length + 1) i with ⟨y, n⟩
    cases y <;> exact id
  · have hn : NotHead (fun c => c = '/') i := by
      cases i with
      | nil => trivial
      | cons c u =>
        rintro rfl
        exact ha (by simp [NotHead])
    have h2 := moreTypes_none (rc := rc) ht hn
    have h3 := lin_arrow h (i := i)
    simp only [memberRestC, h2]
    revert h3
    rcases arrowTailC rc i with ⟨y, n⟩
    have hh : Halt (trim i) := by
      rw [ht]
      cases i with
      | nil => exact absurd trivial ha
      | cons c u =>
        have : c = '^' ∨ c = '=' := Classical.byContradiction ha
        exact ⟨c, u, rfl, .inl (by rcases this with rfl | rfl <;> decide)⟩
    cases y with
    | ok j a =>
      rintro ⟨h3, h4⟩
      refine ⟨h3, ?_⟩
      rcases h4 with h4 | ⟨h4, h5⟩
      · left; simp only [ifOkC] at *; omega
      · right; exact ⟨h4, h5⟩
    | err e => intro h3; exact ⟨List.suffix_refl i, .inr ⟨hh, by simp only [ifOkC]; simp only [Lin] at h3; omega⟩⟩
    | fail e => intro h3; exact ⟨List.suffix_refl i, .inr ⟨hh, by simp only [ifOkC]; simp only [Lin] at h3; omega⟩⟩
    | _ => exact id

/-- The part of an entry behind its first type. -/
def entryTail (rc : PCRec) (first : Ty1) (i : List Char) : PR GrpEntVal × Nat :=
  match first with
  | .simple (.value _) | .simple (.typename _ _) =>
    ifOkC (memberkeyTailC rc i) (fun i'' t => assembleBasicMember first t i'') (memberRestC rc first i)
  | _ => memberRestC rc first i

theorem grpentMemberC_eq (i : List Char) :
    grpentMemberC rc i = bindC (terminatedC (type1C rc) (free ws) i) fun j t => entryTail rc t j := rfl

theorem lin_keyed (h : LinRec x rc r) (t : Ty1) {i : List Char} (ht : trim i = i) :
    Lin (weight i) i 0 1 1 (fun j => Halt (trim j))
      (ifOkC (memberkeyTailC rc i) (fun i'' t' => assembleBasicMember t t' i'') (memberRestC rc t i)) := by
  by_cases hc : NotHead (fun c => c = ':') i
  · obtain ⟨e, he⟩ := skip_keyTail (rc := rc) hc
    have := lin_memberRest h t ht
    simp only [he, ifOkC, Nat.zero_add]
    exact this
  · cases i with
    | nil => exact absurd trivial hc
    | cons c u =>
      have : c = ':' := Classical.byContradiction hc
      subst this
      have h2 := memberRest_none (rc := rc) t ht (notHead_cons (p := fun c => c ∈ "^=/".toList) (by decide) u)
      have h3 := lin_keyTail h (u := u)
      revert h3
      rw [h2]
      have hh : Halt (trim (':' :: u)) := by rw [ht]; exact ⟨_, u, rfl, .inl (by decide)⟩
      rcases memberkeyTailC rc (':' :: u) with ⟨y, n⟩
      cases y with
      | ok j a =>
        rintro ⟨h3, h4⟩
        simp only [ifOkC]
        have ho : ∀ v, Lin (weight (':' :: u)) (':' :: u) 0 1 1 (fun j => Halt (trim j)) ((.ok j v, n) : PR GrpEntVal × Nat) := by
          intro v
          refine ⟨h3, ?_⟩
          rcases h4 with h4 | ⟨h4, h5⟩
          · left; dsimp only at *; omega
          · right; exact ⟨h4, by dsimp only at *; omega⟩
        have hb : n ≤ weight (':' :: u) + 1 := by
          rcases h4 with h4 | ⟨h4, h5⟩ <;> dsimp only at * <;> omega
        unfold assembleBasicMember
        split
        · exact ho _
        · split
          · exact ho _
          · exact hb
        · exact hb
      | err e => intro h3; exact ⟨List.suffix_refl _, .inr ⟨hh, by simp only [ifOkC]; simp only [Lin] at h3; omega⟩⟩
      | fail e => intro h3; exact ⟨List.suffix_refl _, .inr ⟨hh, by simp only [ifOkC]; simp only [Lin] at h3; omega⟩⟩
      | _ => intro h3; simp only [Lin, ifOkC] at *; omega

theorem lin_entryTail (h : LinRec x rc r) (t : Ty1) {i : List Char} (ht : trim i = i) :
    Lin (weight i) i 0 1 1 (fun j => Halt (trim j)) (entryTail rc t i) := by
  unfold entryTail
  split
  · exact lin_keyed h _ ht
  · exact lin_keyed h _ ht
  · exact lin_memberRest h t ht

theorem entryTail_none (t : Ty1) {i : List Char} (ht : trim i = i) (hi : NotHead (fun c => c ∈ ":^=/".toList) i) :
    ∃ v, entryTail rc t i = (.ok i v, 0) := by
  have hk : ∀ c, c ∈ "^=/".toList → c ∈ ":^=/".toList := by
    intro c hc
    have key : ∀ c ∈ "^=/".toList, c ∈ ":^=/".toList := by decide
    exact key c hc
  have h1 := memberRest_none (rc := rc) t ht (hi.imp hk)
  obtain ⟨e, he⟩ := skip_keyTail (rc := rc) (i := i) (hi.imp fun c hc => by rw [hc]; decide)
  refine ⟨.member [t], ?_⟩
  unfold entryTail
  split <;> simp only [he, h1, ifOkC, Nat.zero_add]

theorem lin_member (h : LinRec x rc r) {i : List Char} {N : Nat}
    (h1 : Lin N i 1 0 1 (fun j => ∃ u, j = '<' :: u) (rc.type2 i)) :
    Lin N i 0 0 1 (fun j => Halt (trim j)) (grpentMemberC rc i) := by
  rw [grpentMemberC_eq]
  replace h1 := lin_type1 h h1
  rcases hy : type1C rc i with ⟨y, n⟩
  rw [hy] at h1
  cases y with
  | ok j a =>
    rw [terminated_ws hy]
    obtain ⟨h2, h3⟩ := h1
    have hlj := (trim_suffix j).wl
    have hs : trim j <:+ i := (trim_suffix j).trans h2
    simp only [bindC]
    rcases h3 with h3 | ⟨hd, h3⟩
    · have h4 := lin_entryTail h a (trim_trim j)
      revert h4
      rcases entryTail rc a (trim j) with ⟨y, m⟩
      cases y with
      | ok j' b =>
        rintro ⟨h5, h6⟩
        refine ⟨h5.trans hs, ?_⟩
        rcases h6 with h6 | ⟨h6, h7⟩
        · left; dsimp only at *; omega
        · right; exact ⟨h6, by dsimp only at *; omega⟩
      | _ => intro h5; simp only [Lin] at *; omega
    · obtain ⟨v, hv⟩ := entryTail_none (rc := rc) a (trim_trim j) (hd.not (q := fun c => c ∈ ":^=/".toList) (by decide))
      rw [hv]
      exact ⟨hs, .inr ⟨by dsimp only; rw [trim_trim]; exact hd.halt, by dsimp only at *; omega⟩⟩
  | _ => simp only [terminatedC, bindC, hy]; exact h1

theorem skip_inParens {i : List Char} (hi : NotHead (fun c => c = '(') i) : Skip (inParensC rc i) :=
  Skip.preceded (skip_chr hi)


/-! ## Brackets -/

theorem lin_brackets {q : PC α} {c d : Char} {u : List Char}
    (h1 : Lin (weight (trim u)) (trim u) 0 1 2 (fun j => NotHead (fun e => e = d) (trim j)) (q (trim u))) :
    Lin (weight u + 2) (c :: u) 2 0 0 (fun _ => False)
      (delimitedC (free (chr c)) (delimitedC (free ws) q (free ws)) (free (chr d)) (c :: u)) := by
  have hsu : trim u <:+ c :: u := (trim_suffix u).trans (List.suffix_cons _ _)
  have hl := (trim_suffix u).wl
  have hlu : (c :: u).length = u.length + 1 := rfl
  obtain ⟨t, ht⟩ := ws_trim u
  have hc : chr c (c :: u) = .ok u c := chr_ok c u
  simp only [delimitedC, precededC, terminatedC, bindC, free, hc, ht, Nat.zero_add, Nat.add_zero]
  revert h1
  rcases q (trim u) with ⟨y, n⟩
  cases y with
  | ok j a =>
    rintro ⟨h2, h3⟩
    have hlj := h2.wl
    obtain ⟨t', ht'⟩ := ws_trim j
    have hlt := (trim_suffix j).wl
    simp only [ht']
    rcases h3 with h3 | ⟨h3, h4⟩
    · by_cases hh : NotHead (fun e => e = d) (trim j)
      · obtain ⟨e, he⟩ := chr_err hh
        simp only [he, Lin]
        dsimp only at h3
        omega
      · cases hv : trim j with
        | nil => rw [hv] at hh; exact absurd trivial hh
        | cons e v =>
          rw [hv] at hh
          have : e = d := Classical.byContradiction hh
          subst this
          simp only [chr_ok]
          have hs : v <:+ c :: u := by
            have : v <:+ trim j := by rw [hv]; exact List.suffix_cons _ _
            exact this.trans ((trim_suffix j).trans (h2.trans hsu))
          refine ⟨hs, .inl ?_⟩
          rw [hv, List.length_cons] at hlt
          have hw := weight_cons e v
          dsimp only at *
          omega
    · have hh : NotHead (fun e => e = d) (trim j) := h3
      obtain ⟨e, he⟩ := chr_err hh
      simp only [he, Lin]
      dsimp only at h4
      omega
  | _ => intro h3; simp only [Lin] at *; omega

theorem Lin.weaken {i : List Char} {N s t b : Nat} {D D' : List Char → Prop} {y : PR α × Nat} (h : Lin N i s t b D y)
    (hd : ∀ j, D j → D' j) : Lin N i s t b D' y := by
  revert h
  rcases y with ⟨y, n⟩
  cases y with
  | ok j a =>
    rintro ⟨h1, h2 | ⟨h2, h3⟩⟩
    · exact ⟨h1, .inl h2⟩
    · exact ⟨h1, .inr ⟨hd _ h2, h3⟩⟩
  | _ => exact id

/-- A group in brackets. -/
theorem lin_inBrackets (h : LinRec x rc r) {c d : Char} {u : List Char} (hd : d ∈ ")]}".toList) :
    Lin (weight u + 2) (c :: u) 2 0 0 (fun _ => False)
      (delimitedC (free (chr c)) (delimitedC (free ws) rc.group (free ws)) (free (chr d)) (c :: u)) :=
  lin_brackets ((h.group _ (trim_trim u)).weaken fun j hj => NotHead.imp hj fun e he => by rw [he]; exact hd)

/-! ## Values of entries -/

/-- The value is not read to its end: nothing can be read behind it; or a quote stands there, and what it costs to find out
that nothing can be read is counted in. -/
def DeadVal (rc : PCRec) (N n : Nat) (j : List Char) : Prop :=
  (Halt (trim j) ∧ n ≤ N) ∨ ((∃ u, trim j = '\'' :: u) ∧ n + (grpentValC rc (trim j)).2 ≤ N ∧
    ∀ j' a, (grpentValC rc (trim j)).1 ≠ .ok j' a)

theorem DeadVal.le {N n : Nat} {j : List Char} (h : DeadVal rc N n j) : n ≤ N := by
  rcases h with ⟨-, h⟩ | ⟨-, h, -⟩ <;> omega

def LinV (rc : PCRec) (i : List Char) (y : PR α × Nat) : Prop :=
  match y.1 with
  | .ok j _ => j <:+ i ∧ (y.2 + weight j ≤ weight i ∨ DeadVal rc (weight i + 1) y.2 j)
  | _ => y.2 ≤ weight i + 1

theorem LinV.pmap {i : List Char} {p : PC α} (f : α → β) (h : LinV rc i (p i)) : LinV rc i (pmapC f p i) := by
  unfold pmapC bindC
  revert h
  rcases p i with ⟨y, n⟩
  cases y <;> exact id

theorem Lin.linV {i : List Char} {y : PR α × Nat} (h : Lin (weight i) i 0 0 1 (fun j => Halt (trim j)) y) : LinV rc i y := by
  revert h
  rcases y with ⟨y, n⟩
  cases y with
  | ok j a =>
    rintro ⟨h1, h2 | h2⟩
    · exact ⟨h1, .inl (by dsimp only at *; omega)⟩
    · exact ⟨h1, .inr (.inl h2)⟩
  | _ => exact id

theorem Lin.bound {i : List Char} {N : Nat} {D : List Char → Prop} {y : PR α × Nat} (h : Lin N i 0 0 1 D y) : y.2 ≤ N + 1 := by
  revert h
  rcases y with ⟨y, n⟩
  cases y with
  | ok j a => rintro ⟨h1, h2 | ⟨-, h2⟩⟩ <;> dsimp only at * <;> omega
  | _ => exact id

/-- A literal costs a single call. -/
theorem lin_literal (h : LinRec x rc r) {r' : PRec} (hr : r.type2 = type2 x r') {i j : List Char}
    (hv : (∃ v, value x i = .ok j v) ∨ ∃ e, value x i = .fail e) :
    Lin (weight j + 2) i 1 0 1 (fun j => ∃ u, j = '<' :: u) (rc.type2 i) := by
  have h1 := h.value i (by intro e he; rcases hv with ⟨v, hv⟩ | ⟨e, hv⟩ <;> rw [he] at hv <;> cases hv)
  have h2 := h.same.1 i
  rw [hr] at h2
  revert h1 h2
  rcases rc.type2 i with ⟨y, n⟩
  intro h1 h2
  rcases hv with ⟨v, hv⟩ | ⟨e, hv⟩
  · have h3 : type2 x r' i = .ok j (.value v) := by simp only [type2, alt, pmap, hv, PR.bind]
    rw [h3] at h2
    dsimp only at h1 h2
    subst h2
    exact ⟨suffix_of (x := x) blames_value hv, .inl (by dsimp only; omega)⟩
  · have h3 : type2 x r' i = .fail e := by simp only [type2, alt, pmap, hv, PR.bind]
    rw [h3] at h2
    dsimp only at h1 h2
    subst h2
    simp only [Lin]; omega

theorem same_grpentVal (h : SameRec rc r) : Uncounted (grpentValC rc) (grpentVal r) :=
  same_alt (same_grpentMember h) (same_alt (same_free _) (same_pmap _ (same_inParens h)))

theorem lin_grpentVal (h : LinRec x rc r) {i : List Char} : LinV rc i (grpentValC rc i) := by
  have h1 := lin_member h (h.type2 i)
  have hle := lead_le i
  have hsame := same_grpentMember h.same i
  have hlit := fun N => lin_member h (i := i) (N := N)
  unfold grpentValC altC
  revert h1 hsame hlit
  rcases hy : grpentMemberC rc i with ⟨y, n⟩
  cases y with
  | err e =>
    intro h1 hsame hlit
    simp only at hsame
    dsimp only
    simp only [Lin] at h1
    cases hid : ident i with
    | ok j s =>
      obtain ⟨h2, h3⟩ := ident_lt hid
      simp only [free, pmap, hid, PR.bind, Nat.add_zero]
      refine ⟨h2, .inr ?_⟩
      rcases h.isRec with hr | ⟨r', hr⟩
      · simp [grpentMember, terminated, type1, Cddl.pmap, pair, hr] at hsame
      · obtain ⟨⟨c, u, hcu, hc⟩, hno, hval⟩ := groupname_dead_value hr hsame.symm hid
        rcases hc with rfl | rfl | rfl | hc
        · exact .inl ⟨⟨_, u, hcu, .inl (by decide)⟩, by dsimp only; omega⟩
        · exact .inl ⟨⟨_, u, hcu, .inl (by decide)⟩, by dsimp only; omega⟩
        · right
          obtain ⟨r1, v, hv⟩ := hval ⟨u, hcu⟩
          obtain ⟨rest, b, r4, rfl, hb, rfl⟩ := value_identLike hid hv
          have htr : trim ('\'' :: rest) = '\'' :: rest :=
            trim_noWs (notHead_cons (p := fun c => Blank c ∨ c = ';') (by unfold Blank; decide) _)
          have h5 := hlit _ (lin_literal h hr (.inl ⟨v, hv⟩))
          simp only [Lin] at h5
          have hq : (∃ v, value x ('\'' :: rest) = .ok r1 v) ∨ ∃ e, value x ('\'' :: rest) = .fail e := value_quote hb
          have h6 := (lin_member h (lin_literal h hr hq)).bound
          have hs1 : '\'' :: r1 <:+ rest := suffix_of (x := x) (blames_chars _) hb
          have w1 := hs1.wl
          have w2 := h2.wl
          have w3 : weight ('\'' :: r1) = 2 * weight r1 + 4 := by rw [weight, if_pos (.inr rfl)]
          have w4 : weight ('\'' :: rest) = 2 * weight rest + 4 := by rw [weight, if_pos (.inr rfl)]
          rw [htr] at hno ⊢
          refine ⟨⟨_, rfl⟩, ?_, ?_⟩
          · have h7 : (grpentValC rc ('\'' :: rest)).2 = (grpentMemberC rc ('\'' :: rest)).2 := by
              obtain ⟨e2, h2'⟩ := ident_err (i := '\'' :: rest) (notHead_cons (p := EAlpha) (by unfold EAlpha; decide) _)
              obtain ⟨e3, h3'⟩ := (skip_inParens (rc := rc) (i := '\'' :: rest)
                (notHead_cons (p := fun c => c = '(') (by decide) _)).pmap GrpEntVal.parens
              unfold grpentValC altC
              rcases grpentMemberC rc ('\'' :: rest) with ⟨y, n⟩
              cases y with
              | err e => simp only [free, pmap, h2', PR.bind, h3', Nat.add_zero]
              | _ => rfl
            rw [h7]
            dsimp only
            simp only [List.length_cons] at *
            omega
          · intro j' a he
            rw [same_grpentVal h.same] at he
            exact hno _ _ he
        · exact .inl ⟨⟨c, u, hcu, .inr hc⟩, by dsimp only; omega⟩
    | err e' =>
      by_cases hp : ∃ u, i = '(' :: u
      · obtain ⟨u, rfl⟩ := hp
        have h2 := lin_inBrackets h (c := '(') (d := ')') (u := u) (by decide)
        have w1 : weight ('(' :: u) = 2 * weight u + 4 := by rw [weight, if_pos (.inl rfl)]
        have w2 : lead ('(' :: u) = weight u + 2 := rfl
        replace h2 := h2.pmap GrpEntVal.parens
        change Lin _ _ _ _ _ _ (pmapC GrpEntVal.parens (inParensC rc) ('(' :: u)) at h2
        simp only [free, pmap, hid, PR.bind, Nat.zero_add]
        revert h2
        rcases pmapC GrpEntVal.parens (inParensC rc) ('(' :: u) with ⟨y, m⟩
        cases y with
        | ok j a =>
          rintro ⟨h3, h4 | ⟨h4, -⟩⟩
          · exact ⟨h3, .inl (by dsimp only at *; omega)⟩
          · exact h4.elim
        | _ => intro h3; simp only [Lin, LinV] at *; omega
      · have hn : NotHead (fun c => c = '(') i := by
          cases i with
          | nil => trivial
          | cons c u => rintro rfl; exact hp ⟨u, rfl⟩
        obtain ⟨e2, he2⟩ := (skip_inParens (rc := rc) hn).pmap GrpEntVal.parens
        simp only [free, pmap, hid, PR.bind, he2, Nat.add_zero, LinV]
        omega
    | _ => simp only [free, pmap, hid, PR.bind, Nat.add_zero, LinV]; omega
  | _ => intro h1 _ _; exact (h1.mono hle).linV

theorem lin_grpent (h : LinRec x rc r) {i : List Char} : LinV rc i (grpentC rc i) := by
  unfold grpentC
  apply LinV.pmap
  rw [pairC]
  cases ho : opt (terminated occur ws) i with
  | ok j o =>
    have hj : j <:+ i := suffix_of (x := ⟨fun _ => none, fun _ => none, fun _ => none⟩)
      (blames_opt (blames_terminated blames_occur blames_ws)) ho
    have hlj := hj.wl
    have h1 := lin_grpentVal h (i := j)
    rw [bindC]
    simp only [free, ho, Nat.zero_add]
    revert h1
    rcases grpentValC rc j with ⟨y, n⟩
    cases y with
    | ok j' a =>
      rintro ⟨h3, h4⟩
      refine ⟨h3.trans hj, ?_⟩
      simp only [bindC]
      rcases h4 with h4 | ⟨h4, h5⟩ | ⟨h4, h5, h6⟩
      · left; dsimp only at *; omega
      · right; exact .inl ⟨h4, by dsimp only at *; omega⟩
      · right; exact .inr ⟨h4, by dsimp only at *; omega, h6⟩
    | _ => intro h3; simp only [LinV, bindC] at *; omega
  | _ => simp only [bindC, free, ho, LinV]; omega


/-- Characters that begin an entry. -/
def EntryHead (c : Char) : Prop := TypeHead c ∨ c = '*' ∨ c = '+' ∨ c = '?'

theorem quick_grpent (h : LinRec x rc r) {i : List Char} (hi : NotHead EntryHead i) :
    (grpentC rc i).2 ≤ 1 ∧ ∀ j a, (grpentC rc i).1 ≠ .ok j a := by
  have hi' : NotHead TypeHead i := hi.imp fun c hc => .inl hc
  have ho := occur_none (i := i) (.inl (hi.imp fun c hc => by
    rcases hc with hc | hc
    · exact .inl (.inl hc)
    · exact .inr hc))
  obtain ⟨h1, h2⟩ := quick_type1 h hi'
  obtain ⟨e2, h3⟩ := ident_err (hi'.imp fun c hc => .inr (.inl hc))
  obtain ⟨e3, h4⟩ := (skip_inParens (rc := rc) (hi'.imp fun c hc => by subst hc; exact .inr (.inr (by decide)))).pmap
    GrpEntVal.parens
  have hv : (grpentValC rc i).2 ≤ 1 ∧ ∀ j a, (grpentValC rc i).1 ≠ .ok j a := by
    unfold grpentValC altC
    rw [grpentMemberC_eq]
    simp only [terminatedC]
    revert h1 h2
    rcases type1C rc i with ⟨y, n⟩
    cases y with
    | ok j a => intro _ h2; exact absurd rfl (h2 j a)
    | err e =>
      intro h1 _
      simp only [bindC, free, pmap, h3, PR.bind, h4, Nat.add_zero]
      exact ⟨h1, by simp⟩
    | _ => intro h1 _; simp only [bindC]; exact ⟨h1, by simp⟩
  unfold grpentC
  rw [pmapC_snd]
  simp only [pmapC, pairC]
  have he : bindC (free (opt (terminated occur ws)) i) (fun r a => bindC (grpentValC rc r) fun r' b => ((.ok r' (a, b) : PR (Option OccurLimit × GrpEntVal)), 0)) =
      bindC (grpentValC rc i) fun r' b => (.ok r' (none, b), 0) := by
    rw [bindC]
    simp only [free, ho, Nat.zero_add]
  rw [he]
  revert hv
  rcases grpentValC rc i with ⟨y, n⟩
  cases y with
  | ok j a => rintro ⟨_, h2⟩; exact absurd rfl (h2 j a)
  | _ => rintro ⟨h1, _⟩; exact ⟨h1, by simp [bindC]⟩

/-! ## Groups -/

/-- Behind the entries of a choice: neither another choice nor a closing bracket. -/
def HaltGroup (i : List Char) : Prop := NotHead (fun c => c ∈ ")]}".toList) i ∧ ∀ u, i ≠ '/' :: '/' :: u

theorem Halt.group {i : List Char} (h : Halt i) : HaltGroup i := by
  refine ⟨h.not (by decide), ?_⟩
  rintro u rfl
  obtain ⟨c, v, he, hc | ⟨hc, hn⟩⟩ := h
  · cases he; revert hc; decide
  · cases he; exact hn rfl

theorem Halt.entry {i : List Char} (h : Halt i) : NotHead EntryHead i :=
  h.not (by unfold EntryHead TypeHead Digit EAlpha; decide)

theorem entryHead_group {i : List Char} (h : ¬ NotHead EntryHead i) : HaltGroup i := by
  cases i with
  | nil => exact absurd trivial h
  | cons c u =>
    have hc : EntryHead c := Classical.byContradiction h
    constructor
    · intro hm
      have key : ∀ c ∈ ")]}".toList, ¬ EntryHead c := by unfold EntryHead TypeHead Digit EAlpha; decide
      exact key c hm hc
    · intro v hv
      cases hv
      revert hc
      unfold EntryHead TypeHead Digit EAlpha
      decide

theorem optcom_trim (i : List Char) : ∃ j u, optcom i = .ok j u ∧ j <:+ i ∧ trim j = j ∧
    (NotHead (fun c => c = ',') (trim i) → j = trim i) := by
  obtain ⟨t, hw⟩ := ws_trim i
  rcases comma_cases (trim i) with ⟨u, c, hu, hc⟩ | ⟨e, hc⟩
  · refine ⟨trim u, (), ?_, ?_, trim_trim u, ?_⟩
    · have h2 : opt (pair (tag ",") ws) (trim i) = .ok (trim u) (some c) := by simp only [opt, hc]
      have h3 : pair ws (opt (pair (tag ",") ws)) i = .ok (trim u) (t, some c) := by
        rw [pair, hw]; simp only [PR.bind, h2]
      rw [optcom, pmap, h3]; rfl
    · refine (trim_suffix u).trans (List.IsSuffix.trans ?_ (trim_suffix i))
      rw [hu]; exact List.suffix_cons _ _
    · intro h; rw [hu] at h; exact absurd rfl h
  · refine ⟨trim i, (), ?_, trim_suffix i, trim_trim i, fun _ => rfl⟩
    have h2 : opt (pair (tag ",") ws) (trim i) = .ok (trim i) none := by simp only [opt, hc]
    have h3 : pair ws (opt (pair (tag ",") ws)) i = .ok (trim i) (t, none) := by
      rw [pair, hw]; simp only [PR.bind, h2]
    rw [optcom, pmap, h3]; rfl

/-- An entry with the comma behind it: either the calls are paid for, or the next entry cannot be read and its calls are
counted in. -/
def LinE (q : PC α) (i : List Char) (y : PR α × Nat) : Prop :=
  match y.1 with
  | .ok j _ => j <:+ i ∧ trim j = j ∧ (y.2 + weight j ≤ weight i ∨
      (HaltGroup j ∧ y.2 + (q j).2 ≤ weight i + 2 ∧ ∀ j' a, (q j).1 ≠ .ok j' a))
  | _ => y.2 ≤ weight i + 1

theorem quick_entry (h : LinRec x rc r) {i : List Char} (hi : NotHead EntryHead i) :
    (terminatedC (grpentC rc) (free optcom) i).2 ≤ 1 ∧ ∀ j a, (terminatedC (grpentC rc) (free optcom) i).1 ≠ .ok j a := by
  have := quick_grpent h hi
  unfold terminatedC
  revert this
  rcases grpentC rc i with ⟨y, n⟩
  cases y with
  | ok j a => rintro ⟨_, h2⟩; exact absurd rfl (h2 j a)
  | _ => rintro ⟨h1, _⟩; exact ⟨h1, by simp [bindC]⟩

theorem entry_none {i : List Char} (ho : opt (terminated occur ws) i = .ok i none)
    (hv : ∀ j a, (grpentValC rc i).1 ≠ .ok j a) :
    (terminatedC (grpentC rc) (free optcom) i).2 = (grpentValC rc i).2 ∧
    ∀ j a, (terminatedC (grpentC rc) (free optcom) i).1 ≠ .ok j a := by
  simp only [terminatedC, grpentC, pmapC, pairC]
  have he : bindC (free (opt (terminated occur ws)) i) (fun r a => bindC (grpentValC rc r) fun r' b =>
        ((.ok r' (a, b) : PR (Option OccurLimit × GrpEntVal)), 0)) =
      bindC (grpentValC rc i) fun r' b => (.ok r' (none, b), 0) := by
    rw [bindC]
    simp only [free, ho, Nat.zero_add]
  rw [he]
  revert hv
  rcases grpentValC rc i with ⟨y, n⟩
  cases y with
  | ok j a => intro hv; exact absurd rfl (hv j a)
  | _ => intro _; exact ⟨by simp [bindC], by simp [bindC]⟩

theorem lin_entry (h : LinRec x rc r) {i : List Char} :
    LinE (terminatedC (grpentC rc) (free optcom)) i (terminatedC (grpentC rc) (free optcom) i) := by
  have h1 := lin_grpent h (i := i)
  have hq := fun j => quick_entry h (i := j)
  have hn' := fun j => entry_none (rc := rc) (i := j)
  have e : terminatedC (grpentC rc) (free optcom) i =
      bindC (grpentC rc i) fun r a => bindC (free optcom r) fun r' _ => (.ok r' a, 0) := rfl
  rw [e]
  revert h1 hq hn'
  generalize terminatedC (grpentC rc) (free optcom) = q
  rcases grpentC rc i with ⟨y, n⟩
  cases y with
  | ok j a =>
    rintro ⟨h2, h3⟩ hq hn'
    obtain ⟨j', u, ho, hj, ht, hn⟩ := optcom_trim j
    have hlj := hj.wl
    simp only [bindC, free, ho, Nat.add_zero]
    refine ⟨hj.trans h2, ht, ?_⟩
    rcases h3 with h3 | ⟨h3, h4⟩ | ⟨⟨u, h3⟩, h4, h5⟩
    · left; dsimp only at *; omega
    · right
      rw [hn (h3.not (by decide))]
      obtain ⟨h6, h7⟩ := hq _ h3.entry
      exact ⟨h3.group, by dsimp only at *; omega, h7⟩
    · right
      rw [hn (by rw [h3]; exact notHead_cons (p := fun c => c = ',') (by decide) u)]
      have hd : Dead (trim j) := ⟨_, u, h3, .inr (.inr (.inl rfl))⟩
      obtain ⟨h6, h7⟩ := hn' _ (occur_dead hd) h5
      refine ⟨?_, by dsimp only at *; omega, h7⟩
      rw [h3]
      exact entryHead_group (i := '\'' :: u) fun hh => hh (.inl (.inr (.inr (by decide))))
  | _ => intro h3 _ _; simp only [LinV, LinE, bindC] at *; omega

theorem lin_entries {q : PC α} (hq : ∀ i, LinE q i (q i))
    (hq' : ∀ i, NotHead EntryHead i → (q i).2 ≤ 1 ∧ ∀ j a, (q i).1 ≠ .ok j a) : ∀ k i, trim i = i →
    Lin (weight i) i 0 1 2 HaltGroup (many0LoopC q k i) ∧ ∀ j a, (many0LoopC q k i).1 = .ok j a → trim j = j := by
  intro k
  induction k with
  | zero => intro i _; simp [many0LoopC, Lin]
  | succ k ih =>
    intro i ht
    have h1 := hq i
    have h1' := hq' i
    rw [many0LoopC]
    revert h1 h1'
    rcases q i with ⟨y, n⟩
    cases y with
    | ok j a =>
      rintro ⟨h2, htj, h3⟩ -
      have hlj := h2.wl
      dsimp only
      split
      · refine ⟨?_, fun j a he => by cases he⟩
        simp only [Lin]
        rcases h3 with h3 | ⟨-, h3, -⟩ <;> dsimp only at h3 <;> omega
      · rcases h3 with h3 | ⟨hd, h3, h6⟩
        · obtain ⟨h4, h4'⟩ := ih j htj
          revert h4 h4'
          rcases many0LoopC q k j with ⟨y, m⟩
          cases y with
          | ok j' b =>
            rintro ⟨h5, h6⟩ h7
            refine ⟨⟨h5.trans h2, ?_⟩, fun j2 a2 he => by cases he; exact h7 _ _ rfl⟩
            simp only [bindC]
            rcases h6 with h6 | ⟨h6, h7⟩
            · left; dsimp only at *; omega
            · right; exact ⟨h6, by dsimp only at *; omega⟩
          | _ => intro h5 _; exact ⟨by simp only [Lin, bindC] at *; omega, fun j2 a2 he => by cases he⟩
        · cases k with
          | zero => exact ⟨by simp only [Lin, bindC, many0LoopC] at *; omega, fun j2 a2 he => by cases he⟩
          | succ k =>
            rw [many0LoopC]
            revert h3 h6
            rcases q j with ⟨y, m⟩
            cases y with
            | ok j2 a2 => intro _ h6; exact absurd rfl (h6 j2 a2)
            | err e =>
              intro h5 _
              refine ⟨⟨h2, .inr ⟨hd, ?_⟩⟩, fun j2 a2 he => by cases he; exact htj⟩
              simp only [bindC]
              dsimp only at *; omega
            | _ => intro h5 _; exact ⟨by simp only [Lin, bindC] at *; omega, fun j2 a2 he => by cases he⟩
    | err e =>
      intro h1 h1'
      refine ⟨⟨List.suffix_refl i, ?_⟩, fun j a he => by cases he; exact ht⟩
      by_cases hh : NotHead EntryHead i
      · left
        have := (h1' hh).1
        dsimp only at *; omega
      · right
        exact ⟨entryHead_group hh, by simp only [LinE] at h1; dsimp only; omega⟩
    | _ => intro h1 _; exact ⟨by simp only [Lin, LinE] at *; omega, fun j a he => by cases he⟩

theorem lin_grpchoice (h : LinRec x rc r) {i : List Char} (ht : trim i = i) :
    Lin (weight i) i 0 1 2 HaltGroup (grpchoiceC rc i) ∧ ∀ j a, (grpchoiceC rc i).1 = .ok j a → trim j = j :=
  lin_entries (fun i => lin_entry h (i := i)) (fun i => quick_entry h (i := i)) _ i ht

theorem dslash_cases (i : List Char) : (∃ u a, trim i = '/' :: '/' :: u ∧ delimited ws (tag "//") ws i = .ok (trim u) a) ∨
    ((∀ u, trim i ≠ '/' :: '/' :: u) ∧ ∃ e, delimited ws (tag "//") ws i = .err e) := by
  by_cases hs : ∃ u, trim i = '/' :: '/' :: u
  · obtain ⟨u, hu⟩ := hs
    obtain ⟨t, hw⟩ := ws_trim i
    obtain ⟨t', hw'⟩ := ws_trim u
    have h1 : tag "//" ('/' :: '/' :: u) = .ok u ['/', '/'] := tag_ok "//" ['/', '/'] _ rfl
    exact .inl ⟨u, ['/', '/'], hu, by simp only [delimited, preceded, terminated, hw, hu, h1, hw', PR.bind]⟩
  · obtain ⟨t, hw⟩ := ws_trim i
    obtain ⟨e, he⟩ : ∃ e, tag "//" (trim i) = .err e := tag_err fun u hu => hs ⟨u, hu⟩
    exact .inr ⟨fun u hu => hs ⟨u, hu⟩, e, by simp only [delimited, preceded, terminated, hw, he, PR.bind]⟩

theorem lin_choices {q : PC α} (hq : ∀ i, trim i = i → Lin (weight i) i 0 1 2 HaltGroup (q i) ∧
      ∀ j a, (q i).1 = .ok j a → trim j = j) : ∀ k i,
    Lin (weight i) i 0 0 0 (fun j => NotHead (fun c => c ∈ ")]}".toList) (trim j))
      (many0LoopC (precededC (free (delimited ws (tag "//") ws)) q) k i) := by
  intro k
  induction k with
  | zero => intro i; simp [many0LoopC, Lin]
  | succ k ih =>
    intro i
    rcases dslash_cases i with ⟨u, a, hu, hs⟩ | ⟨-, e, hs⟩
    · have hsu : trim u <:+ i := by
        refine (trim_suffix u).trans (List.IsSuffix.trans ?_ (trim_suffix i))
        rw [hu]; exact (List.suffix_cons _ _).trans (List.suffix_cons _ _)
      have hl : (trim u).length + 2 ≤ i.length ∧ weight (trim u) + 4 ≤ weight i := by
        have h1 := (trim_suffix u).wl
        have h2 := (trim_suffix i).wl
        rw [hu, List.length_cons, List.length_cons] at h2
        have hw := weight_cons '/' ('/' :: u)
        have hw' := weight_cons '/' u
        omega
      have hp : precededC (free (delimited ws (tag "//") ws)) q i = q (trim u) := by
        simp only [precededC, bindC, free, hs, Nat.zero_add]
      rw [many0LoopC]
      simp only [hp]
      obtain ⟨h1, h1'⟩ := hq (trim u) (trim_trim u)
      revert h1 h1'
      rcases q (trim u) with ⟨y, n⟩
      cases y with
      | ok j b =>
        rintro ⟨h2, h3⟩ ht'
        have hlj := h2.wl
        have htj : trim j = j := ht' j b rfl
        simp only [show ¬ j.length = i.length by omega, if_false]
        have h4 := ih j
        rcases h3 with h3 | ⟨hd, h3⟩
        · revert h4
          rcases many0LoopC (precededC (free (delimited ws (tag "//") ws)) q) k j with ⟨y, m⟩
          cases y with
          | ok j' b =>
            rintro ⟨h5, h6⟩
            refine ⟨h5.trans (h2.trans hsu), ?_⟩
            simp only [bindC]
            rcases h6 with h6 | ⟨h6, h7⟩
            · left; dsimp only at *; omega
            · right; exact ⟨h6, by dsimp only at *; omega⟩
          | _ => intro h5; simp only [Lin, bindC] at *; omega
        · cases k with
          | zero => simp only [Lin, bindC, many0LoopC] at *; omega
          | succ k =>
            rcases dslash_cases j with ⟨v, _, hv, -⟩ | ⟨-, e, he⟩
            · rw [htj] at hv
              exact absurd hv (hd.2 v)
            · simp only [many0LoopC, precededC, free, he, bindC]
              refine ⟨h2.trans hsu, .inr ⟨by dsimp only; rw [htj]; exact hd.1, ?_⟩⟩
              dsimp only at *; omega
      | err e =>
        intro h1 _
        refine ⟨List.suffix_refl i, .inr ⟨?_, ?_⟩⟩
        · dsimp only
          rw [hu]; exact notHead_cons (p := fun c => c ∈ ")]}".toList) (by decide) _
        · simp only [Lin] at h1; dsimp only; omega
      | _ => intro h1 _; simp only [Lin] at *; omega
    · simp only [many0LoopC, precededC, bindC, free, hs]
      exact ⟨List.suffix_refl i, .inl (by dsimp only; omega)⟩

theorem lin_group (h : LinRec x rc r) {i : List Char} (ht : trim i = i) :
    Lin (weight i) i 0 1 2 (fun j => NotHead (fun c => c ∈ ")]}".toList) (trim j)) (groupC rc i) := by
  unfold groupC
  apply Lin.pmap
  have hq := fun i => lin_grpchoice h (i := i)
  revert hq
  generalize grpchoiceC rc = q
  intro hq
  rw [pairC]
  obtain ⟨h1, h1'⟩ := hq i ht
  revert h1 h1'
  rcases q i with ⟨y, n⟩
  cases y with
  | ok j a =>
    rintro ⟨h2, h3⟩ ht'
    have hlj := h2.wl
    have htj : trim j = j := ht' j a rfl
    have h4 := lin_choices hq (j.length + 1) j
    simp only [bindC, many0C]
    rcases h3 with h3 | ⟨hd, h3⟩
    · revert h4
      rcases many0LoopC (precededC (free (delimited ws (tag "//") ws)) q) (j.length + 1) j with ⟨y, m⟩
      cases y with
      | ok j' b =>
        rintro ⟨h5, h6⟩
        refine ⟨h5.trans h2, ?_⟩
        rcases h6 with h6 | ⟨h6, h7⟩
        · left; dsimp only at *; omega
        · right; exact ⟨h6, by dsimp only at *; omega⟩
      | _ => intro h5; simp only [Lin] at *; omega
    · rcases dslash_cases j with ⟨v, _, hv, -⟩ | ⟨-, e, he⟩
      · rw [htj] at hv
        exact absurd hv (hd.2 v)
      · simp only [many0LoopC, precededC, free, he, bindC]
        refine ⟨h2, .inr ⟨by dsimp only; rw [htj]; exact hd.1, ?_⟩⟩
        dsimp only at *; omega
  | _ => intro h3 _; simp only [Lin, bindC] at *; omega

/-! ## Types: the alternatives -/


/-- The first of two alternatives, where the second costs nothing if it is tried. -/
theorem Lin.alt {i : List Char} {N s t b : Nat} {D : List Char → Prop} {p q : PC α} (h : Lin N i s t b D (p i))
    (hq : Skip (q i)) : Lin N i s t b D (altC p q i) := by
  obtain ⟨e, hq⟩ := hq
  unfold altC
  revert h
  rcases p i with ⟨y, n⟩
  cases y with
  | err e => intro h; simp only [hq, Nat.add_zero]; exact h
  | _ => exact id

/-- The first of two alternatives, where the first costs nothing if it does not succeed. -/
theorem Lin.alt' {i : List Char} {N s t b : Nat} {D : List Char → Prop} {p q : PC α} (h : Lin N i s t b D (p i))
    (h' : ∀ e n, p i = (.err e, n) → n = 0) (hq : Lin N i s t b D (q i)) : Lin N i s t b D (altC p q i) := by
  unfold altC
  revert h h'
  rcases p i with ⟨y, n⟩
  cases y with
  | err e => intro _ h'; have := h' e n rfl; subst this; simp only [Nat.zero_add]; exact hq
  | _ => intro h _; exact h

theorem pmapC_err {p : PC α} {f : α → β} {i : List Char} {e n} (h : pmapC f p i = (.err e, n)) : p i = (.err e, n) := by
  unfold pmapC at h
  revert h
  rcases p i with ⟨y, m⟩
  cases y with
  | err e' => intro h; simp only [bindC] at h; cases h; rfl
  | _ => intro h; simp [bindC] at h

theorem skip_parens {i : List Char} (h : NotHead (fun d => d = '(') i) : Skip (type2ParensC rc i) := Skip.preceded (skip_chr h)

theorem skip_map {i : List Char} (h : NotHead (fun d => d = '{') i) : Skip (type2MapC rc i) := Skip.preceded (skip_chr h)

theorem skip_array {i : List Char} (h : NotHead (fun d => d = '[') i) : Skip (type2ArrayC rc i) := Skip.preceded (skip_chr h)

/-- A prefix sign before a name. -/
theorem lin_sign (h : LinRec x rc r) {c : Char} {t : String} (htc : t.toList = [c]) {i : List Char} :
    Lin (lead i) i 2 0 0 (fun j => ∃ u, j = '<' :: u) (precededC (free (tag t)) (precededC (free ws) (nameGenericC rc)) i) ∧
    ∀ e n, precededC (free (tag t)) (precededC (free ws) (nameGenericC rc)) i = (.err e, n) → n = 0 := by
  by_cases hc : ∃ u, i = c :: u
  · obtain ⟨u, rfl⟩ := hc
    have h1 : tag t (c :: u) = .ok u [c] := tag_ok t [c] u (by rw [htc])
    have hsu : trim u <:+ c :: u := (trim_suffix u).trans (List.suffix_cons _ _)
    have hl := (trim_suffix u).wl
    have hl' := lead_le (trim u)
    have hlead : lead (c :: u) = weight u + 2 := rfl
    have he : precededC (free (tag t)) (precededC (free ws) (nameGenericC rc)) (c :: u) = nameGenericC rc (trim u) := by
      rw [precededC, bindC]
      simp only [free, h1, Nat.zero_add]
      exact preceded_ws _ _
    rw [he]
    obtain ⟨h2, h3⟩ := lin_name h (i := trim u)
    refine ⟨?_, h3⟩
    revert h2
    rcases nameGenericC rc (trim u) with ⟨y, n⟩
    cases y with
    | ok j a =>
      rintro ⟨h4, h5⟩
      refine ⟨h4.trans hsu, ?_⟩
      rcases h5 with h5 | ⟨h5, h6⟩
      · left; dsimp only at *; omega
      · right; exact ⟨h5, by dsimp only at *; omega⟩
    | _ => intro h2; simp only [Lin] at *; omega
  · obtain ⟨e, he⟩ := Skip.preceded (q := precededC (free ws) (nameGenericC rc))
      (skip_tag (t := t) (i := i) fun u hu => hc ⟨u, by rw [hu, htc]; rfl⟩)
    rw [he]
    exact ⟨by simp only [Lin]; omega, fun e n h => by cases h; rfl⟩

theorem skip_sign {i : List Char} {t : String} {c : Char} (htc : t.toList = [c]) {d : Char} {u : List Char} (hi : i = d :: u)
    (hd : d ≠ c) : Skip (free (tag t) i) := by
  refine skip_tag fun v hv => ?_
  rw [hi, htc] at hv
  cases hv
  exact hd rfl

theorem notHead_of {i u : List Char} {d c : Char} (hi : i = d :: u) (hd : d ≠ c) : NotHead (fun e => e = c) i := by
  rw [hi]
  exact hd

theorem notHead_not {i : List Char} {c : Char} (hm : ¬ ∃ u, i = c :: u) : NotHead (fun d => d = c) i := by
  cases i with
  | nil => trivial
  | cons d u => rintro rfl; exact hm ⟨u, rfl⟩

theorem lin_alts (h : LinRec x rc r) {i : List Char} :
    Lin (lead i) i 2 0 0 (fun j => ∃ u, j = '<' :: u) (type2AltsC x rc i) := by
  unfold type2AltsC
  -- literals
  apply Lin.alt'
  · cases hv : value x i with
    | ok j v =>
      have hs : j <:+ i := suffix_of (x := x) blames_value hv
      have := sound_value (n := i.length) x i (Nat.le_refl _)
      rw [hv] at this
      obtain ⟨s, h1, h2⟩ := this
      have := exactRel.lt h1 h2.starts.ne
      have := suffix_lead hs (by omega)
      simp only [free, pmap, hv, PR.bind]
      exact ⟨hs, .inl (by dsimp only; omega)⟩
    | _ => simp only [free, pmap, hv, PR.bind, Lin]; omega
  · intro e n he
    simp only [free, Prod.mk.injEq] at he
    exact he.2.symm
  -- names
  apply Lin.alt' ((lin_name h).1.pmap _) (fun e n he => (lin_name h).2 e n (pmapC_err he))
  -- the last alternatives for another first character
  have last : ∀ {d : Char} {u : List Char}, i = d :: u → d ≠ '~' → d ≠ '&' →
      ∀ {f : PC (String × List Ty1)} {g : PC Group} {k : PC (String × List Ty1)},
      Skip (altC (pmapC (fun p => Ty2.unwrap p.1 p.2) (precededC (free (tag "~")) f))
        (altC (pmapC Ty2.choiceifyInline (precededC (free (tag "&")) g))
          (pmapC (fun p => Ty2.choiceify p.1 p.2) (precededC (free (tag "&")) k))) i) := by
    intro d u hi h1 h2 f g k
    have s1 := skip_sign (t := "~") (c := '~') rfl hi h1
    have s2 := skip_sign (t := "&") (c := '&') rfl hi h2
    rw [Skip.alt (s1.preceded.pmap _), Skip.alt (s2.preceded.pmap _)]
    exact s2.preceded.pmap _
  by_cases hp : ∃ u, i = '(' :: u
  · obtain ⟨u, hu⟩ := hp
    have h1 : Lin (weight u + 2) ('(' :: u) 2 0 0 (fun _ => False) (type2ParensC rc ('(' :: u)) := by
      refine lin_brackets ?_
      have := lin_ty h (h.type2w (trim u))
      revert this
      rcases tyC rc (trim u) with ⟨y, n⟩
      cases y with
      | ok j a =>
        rintro ⟨h2, h3 | ⟨h3, h4⟩⟩
        · exact ⟨h2, .inl (by dsimp only at *; omega)⟩
        · exact ⟨h2, .inr ⟨h3.not (by decide), by dsimp only at *; omega⟩⟩
      | _ => intro h2; simp only [Lin] at *; omega
    rw [← hu] at h1
    have hl : lead i = weight u + 2 := by rw [hu]; rfl
    rw [hl]
    refine Lin.alt ((h1.weaken fun _ => False.elim).pmap _) ?_
    rw [Skip.alt ((skip_map (notHead_of hu (by decide))).pmap _), Skip.alt ((skip_array (notHead_of hu (by decide))).pmap _)]
    exact last hu (by decide) (by decide)
  rw [Skip.alt ((skip_parens (notHead_not hp)).pmap _)]
  by_cases hm : ∃ u, i = '{' :: u
  · obtain ⟨u, hu⟩ := hm
    have hl : lead i = weight u + 2 := by rw [hu]; rfl
    have h1 : Lin (weight u + 2) i 2 0 0 (fun _ => False) (type2MapC rc i) := by rw [hu]; exact lin_inBrackets h (by decide)
    rw [hl]
    refine Lin.alt ((h1.weaken fun _ => False.elim).pmap _) ?_
    rw [Skip.alt ((skip_array (notHead_of hu (by decide))).pmap _)]
    exact last hu (by decide) (by decide)
  rw [Skip.alt ((skip_map (notHead_not hm)).pmap _)]
  by_cases ha : ∃ u, i = '[' :: u
  · obtain ⟨u, hu⟩ := ha
    have hl : lead i = weight u + 2 := by rw [hu]; rfl
    have h1 : Lin (weight u + 2) i 2 0 0 (fun _ => False) (type2ArrayC rc i) := by rw [hu]; exact lin_inBrackets h (by decide)
    rw [hl]
    refine Lin.alt ((h1.weaken fun _ => False.elim).pmap _) ?_
    exact last hu (by decide) (by decide)
  rw [Skip.alt ((skip_array (notHead_not ha)).pmap _)]
  apply Lin.alt' ((lin_sign h (c := '~') rfl).1.pmap _) (fun e n he => (lin_sign h (c := '~') rfl).2 e n (pmapC_err he))
  by_cases hc : ∃ u, i = '&' :: u
  · obtain ⟨u, hu⟩ := hc
    have h1 : tag "&" ('&' :: u) = .ok u ['&'] := tag_ok "&" ['&'] u rfl
    have he : precededC (free (tag "&")) (precededC (free ws) (inParensC rc)) i = inParensC rc (trim u) := by
      rw [hu, precededC, bindC]
      simp only [free, h1, Nat.zero_add]
      exact preceded_ws _ _
    by_cases hv : ∃ v, trim u = '(' :: v
    · obtain ⟨v, hv⟩ := hv
      refine Lin.alt ?_ ?_
      · refine Lin.pmap _ ?_
        rw [he, hv]
        have h2 : Lin (weight v + 2) ('(' :: v) 2 0 0 (fun _ => False) (inParensC rc ('(' :: v)) := lin_inBrackets h (by decide)
        have hl : lead i = weight u + 2 := by rw [hu]; rfl
        have hsu : '(' :: v <:+ i := by rw [← hv, hu]; exact (trim_suffix u).trans (List.suffix_cons _ _)
        have hw := weight_cons '(' v
        have hw' := (trim_suffix u).wl
        rw [hv] at hw'
        revert h2
        rcases inParensC rc ('(' :: v) with ⟨y, n⟩
        cases y with
        | ok j a =>
          rintro ⟨h2, h3 | ⟨h3, -⟩⟩
          · exact ⟨h2.trans hsu, .inl (by dsimp only at *; omega)⟩
          · exact h3.elim
        | _ => intro h2; simp only [Lin] at *; omega
      · refine Skip.pmap _ ?_
        rw [hu, precededC, bindC]
        simp only [free, h1, Nat.zero_add]
        change Skip (precededC (free ws) (nameGenericC rc) u)
        rw [preceded_ws, hv]
        obtain ⟨e, he⟩ := ident_err (i := '(' :: v) (notHead_cons (p := EAlpha) (by unfold EAlpha; decide) _)
        refine Skip.pmap _ ⟨e, ?_⟩
        simp only [pairC, bindC, free, he]
    · have h4 : Skip (precededC (free (tag "&")) (precededC (free ws) (inParensC rc)) i) := by
        rw [he]
        exact skip_inParens (notHead_not hv)
      rw [Skip.alt (h4.pmap _)]
      exact (lin_sign h (c := '&') rfl).1.pmap _
  · have h4 : Skip (precededC (free (tag "&")) (precededC (free ws) (inParensC rc)) i) :=
      Skip.preceded (skip_tag fun u hu => hc ⟨u, hu⟩)
    rw [Skip.alt (h4.pmap _)]
    exact (lin_sign h (c := '&') rfl).1.pmap _

theorem lin_type2 (h : LinRec x rc r) {i : List Char} :
    Lin (lead i) i 1 0 1 (fun j => ∃ u, j = '<' :: u) (type2C x rc i) := by
  have h1 := lin_alts h (i := i)
  unfold type2C
  revert h1
  rcases type2AltsC x rc i with ⟨y, n⟩
  cases y with
  | ok j a =>
    rintro ⟨h1, h2⟩
    refine ⟨h1, ?_⟩
    rcases h2 with h2 | ⟨h2, h3⟩
    · left; dsimp only at *; omega
    · right; exact ⟨h2, by dsimp only at *; omega⟩
  | _ => intro h1; simp only [Lin] at *; omega

theorem value_type2 {i : List Char} (hv : ∀ e, value x i ≠ .err e) : (type2C x rc i).2 ≤ 1 := by
  simp only [type2C, type2AltsC, altC, free, pmap]
  cases h : value x i with
  | err e => exact absurd h (hv e)
  | _ => simp

theorem quick_alts {i : List Char} (hi : NotHead TypeHead i) : (type2AltsC x rc i).2 = 0 := by
  have hm : ∀ c ∈ "-\"'({[~&".toList, NotHead (fun d => d = c) i := fun c hc => hi.imp fun d hd => by
    subst hd; exact .inr (.inr hc)
  have ht : ∀ (t : String) (c : Char), t.toList = [c] → c ∈ "-\"'({[~&".toList → Skip (free (tag t) i) := by
    intro t c htc hc
    refine skip_tag fun u hu => ?_
    have := hm c hc
    rw [hu, htc] at this
    exact this rfl
  have hn : Skip (nameGenericC rc i) := by
    obtain ⟨e, he⟩ := ident_err (hi.imp fun c hc => .inr (.inl hc))
    refine Skip.pmap _ ⟨e, ?_⟩
    simp only [pairC, bindC, free, he]
  unfold type2AltsC
  have h1 : Skip (free (pmap Ty2.value (value x)) i) := by
    obtain ⟨e, he⟩ := type2_err (x := x) (r := ⟨fun _ => .oof, fun _ => .oof⟩) hi
    unfold type2 at he
    obtain ⟨⟨e1, h1⟩, -⟩ := alt_err_both he
    exact skip_free h1
  rw [h1.alt, Skip.alt (hn.pmap _), Skip.alt ((skip_parens (hm '(' (by decide))).pmap _),
    Skip.alt ((skip_map (hm '{' (by decide))).pmap _),
    Skip.alt ((skip_array (hm '[' (by decide))).pmap _),
    Skip.alt ((ht "~" '~' rfl (by decide)).preceded.pmap _), Skip.alt ((ht "&" '&' rfl (by decide)).preceded.pmap _)]
  obtain ⟨e, he⟩ := (ht "&" '&' rfl (by decide)).preceded (q := precededC (free ws) (nameGenericC rc)) |>.pmap
    (fun p => Ty2.choiceify p.1 p.2)
  rw [he]

theorem lin_parsers : ∀ n, LinRec x (parsersC x n) (parsers x n) := by
  intro n
  induction n with
  | zero =>
    exact ⟨same_parsers 0, .inl fun _ => rfl, fun i _ => by simp [parsersC], fun i _ => by simp [parsersC],
      fun i => by simp [parsersC, Lin], fun i _ => by simp [parsersC, Lin]⟩
  | succ n ih =>
    refine ⟨same_parsers _, .inr ⟨_, rfl⟩, fun i hi => ?_, fun i hv => value_type2 hv, fun i => lin_type2 ih,
      fun i ht => lin_group ih ht⟩
    change (type2AltsC x (parsersC x n) i).2 + 1 ≤ 1
    rw [quick_alts hi]
    exact Nat.le_refl _

theorem lin_parserRec : LinRec x (parserRecC x) (parserRec x) where
  same := same_parserRec
  isRec := isRec_rec
  quick i hi := by rw [parserRecC_type2]; exact (lin_parsers _).quick i hi
  value i hv := by rw [parserRecC_type2]; exact (lin_parsers _).value i hv
  type2 i := by rw [parserRecC_type2]; exact (lin_parsers _).type2 i
  group i ht := by rw [parserRecC_group]; exact (lin_parsers _).group i ht

/-! ## Rules -/

/-- As `Lin`, with four calls for each character: what cannot be read as a type is read again as an entry. -/
def Lin4 (i : List Char) (b : Nat) (D : List Char → Prop) (y : PR α × Nat) : Prop :=
  match y.1 with
  | .ok r _ => r <:+ i ∧ (y.2 + 2 * weight r ≤ 2 * weight i + b ∨ (D r ∧ y.2 ≤ 2 * weight i + b))
  | _ => y.2 ≤ 2 * weight i + b

theorem Lin4.pmap {i : List Char} {b : Nat} {D : List Char → Prop} {p : PC α} (f : α → β) (h : Lin4 i b D (p i)) :
    Lin4 i b D (pmapC f p i) := by
  unfold pmapC bindC
  revert h
  rcases p i with ⟨y, n⟩
  cases y <;> exact id

/-- Behind a rule that could not be read to its end. -/
def HaltRule (i : List Char) : Prop := Halt i ∨ ∃ c u, i = c :: u ∧ (c = '\'' ∨ c = '(')

theorem Lin.lin4 {i : List Char} {y : PR α × Nat} (h : Lin (weight i) i 0 0 1 (fun j => Halt (trim j)) y) :
    Lin4 i 2 (fun j => HaltRule (trim j)) y := by
  revert h
  rcases y with ⟨y, n⟩
  cases y with
  | ok j a =>
    rintro ⟨h1, h2⟩
    have := h1.wl
    refine ⟨h1, ?_⟩
    rcases h2 with h2 | ⟨h2, h3⟩
    · left; dsimp only at *; omega
    · right; exact ⟨.inl h2, by dsimp only at *; omega⟩
  | _ => intro h; simp only [Lin, Lin4] at *; omega

/-- An entry where no type can be read begins with a parenthesis or has an occurrence. -/
theorem entry_notType {i j : List Char} {e : GrpEnt} {err : ParseError} (hi : NotHead (fun c => c = '(') i)
    (ht : ty (parserRec x) i = .err err) (he : grpent (parserRec x) i = .ok j e) : NotHead TypeHead i := by
  obtain ⟨e2, h2⟩ := ty_err_inv ht
  obtain ⟨hu, hid⟩ := type2_err_inv h2
  obtain ⟨_, ⟨o, v⟩, h3, h4⟩ := pbind_ok he
  cases h4
  obtain ⟨r1, o', h5, h6⟩ := pbind_ok h3
  obtain ⟨r2, v', h7, h8⟩ := pbind_ok h6
  cases h8
  have hsign : ∀ {c : Char} {u : List Char}, i = c :: u → c ∈ "*+?".toList → NotHead TypeHead i := by
    intro c u hcu hc
    have key : ∀ c ∈ "*+?".toList, ¬ TypeHead c := by unfold TypeHead Digit EAlpha; decide
    rw [hcu]
    exact key c hc
  cases o with
  | none =>
    exfalso
    have := opt_none h5
    subst this
    have hm : ∃ e, grpentMember (parserRec x) r1 = .err e :=
      ⟨e2, by simp only [grpentMember, terminated, type1, Cddl.pmap, pair, parserRec_type2_eq, h2, PR.bind]⟩
    obtain ⟨e3, hm⟩ := hm
    unfold grpentVal at h7
    rw [alt_err hm] at h7
    rcases palt_ok h7 with h | ⟨-, h⟩
    · obtain ⟨_, s, h9, -⟩ := pbind_ok h
      exact absurd h9 (hid _ _)
    · obtain ⟨_, g, h9, -⟩ := pbind_ok h
      obtain ⟨e4, h10⟩ := inParens_err (r := parserRec x) hi
      rw [h10] at h9
      cases h9
  | some o =>
    obtain ⟨r3, o2, h9, -⟩ := pbind_ok (opt_some h5)
    unfold occur at h9
    rcases palt_ok h9 with h | ⟨-, h⟩
    · unfold occurStar mapRes at h
      obtain ⟨r4, ⟨lo, st, up⟩, h12, h13⟩ := pbind_ok h
      obtain ⟨r5, lo', h14, h15⟩ := pbind_ok h12
      obtain ⟨r6, b, h16, -⟩ := pbind_ok h15
      cases lo' with
      | none =>
        have := opt_none h14
        subst this
        obtain ⟨r7, s7, h17, -⟩ := pbind_ok h16
        obtain ⟨u, hcu⟩ := tag_head (c := '*') rfl h17
        exact hsign hcu (by decide)
      | some lo =>
        obtain ⟨a, h⟩ := mapResFail_ok (opt_some h14)
        exact absurd h (hu _ _)
    · rcases palt_ok h with h | ⟨-, h⟩
      · obtain ⟨_, _, h, -⟩ := pbind_ok h
        obtain ⟨u, hcu⟩ := tag_head (c := '+') rfl h
        exact hsign hcu (by decide)
      · obtain ⟨_, _, h, -⟩ := pbind_ok h
        obtain ⟨u, hcu⟩ := tag_head (c := '?') rfl h
        exact hsign hcu (by decide)

theorem lin_assigned {i : List Char} : Lin4 i 2 (fun j => HaltRule (trim j))
    (altC (pmapC RuleVal.assignType (tyC (parserRecC x))) (pmapC RuleVal.assignGroup (grpentC (parserRecC x))) i) := by
  have h1 := lin_ty (lin_parserRec (x := x)) (lin_parserRec.type2 i)
  have hle := lead_le i
  have h2 := lin_grpent (lin_parserRec (x := x)) (i := i)
  have e1 := same_ty (same_parserRec (x := x)) i
  have e2 := same_grpent (same_parserRec (x := x)) i
  have hq := quick_ty (lin_parserRec (x := x)) (i := i)
  unfold altC pmapC
  revert h1 h2 e1 e2 hq
  rcases tyC (parserRecC x) i with ⟨y, n⟩
  rcases grpentC (parserRecC x) i with ⟨z, m⟩
  cases y with
  | ok j a => intro h1 _ _ _ _; exact (h1.mono hle).lin4
  | err e =>
    intro h1 h2 e1 e2 hq
    simp only [Lin] at h1
    cases z with
    | ok j a =>
      obtain ⟨h3, h4⟩ := h2
      have hw := h3.wl
      simp only [bindC]
      refine ⟨h3, ?_⟩
      rcases h4 with h4 | h4
      · by_cases hp : ∃ u, i = '(' :: u
        · obtain ⟨u, rfl⟩ := hp
          have w1 : weight ('(' :: u) = 2 * weight u + 4 := by rw [weight, if_pos (.inl rfl)]
          have w2 : lead ('(' :: u) = weight u + 2 := rfl
          by_cases hj : j.length = ('(' :: u).length
          · have hj := h3.eq_of_length hj
            subst hj
            right
            refine ⟨.inr ⟨'(', u, trim_noWs (notHead_cons (p := fun c => Blank c ∨ c = ';') (by unfold Blank; decide) _),
              .inr rfl⟩, ?_⟩
            dsimp only at *; omega
          · left
            have := suffix_lead h3 (by omega)
            dsimp only at *; omega
        · left
          have := hq (entry_notType (notHead_not hp) e1.symm e2.symm)
          dsimp only at *; omega
      · right
        have := h4.le
        refine ⟨?_, by dsimp only at *; omega⟩
        rcases h4 with ⟨h4, -⟩ | ⟨⟨u, h4⟩, -⟩
        · exact .inl h4
        · exact .inr ⟨_, u, h4, .inl rfl⟩
    | _ => simp only [bindC, LinV, Lin4] at *; omega
  | _ => intro h1 _ _ _ _; simp only [bindC, Lin, Lin4] at *; omega

theorem lin_ruleVal {i : List Char} : Lin4 i 2 (fun j => HaltRule (trim j)) (ruleValC x i) := by
  unfold ruleValC
  have hq := fun i => lin_assigned (x := x) (i := i)
  revert hq
  generalize altC (pmapC RuleVal.assignType (tyC (parserRecC x))) (pmapC RuleVal.assignGroup (grpentC (parserRecC x))) = q
  intro hq
  rw [precededC]
  cases hg : tag "=" i with
  | ok j c =>
    have hj : j <:+ i := suffix_of (x := x) (blames_tag _) hg
    have hs : trim j <:+ i := (trim_suffix j).trans hj
    have hl := hs.wl
    rw [bindC]
    simp only [free, hg, Nat.zero_add]
    change Lin4 _ _ _ (precededC (free ws) q j)
    rw [preceded_ws]
    have h1 := hq (trim j)
    revert h1
    rcases q (trim j) with ⟨y, n⟩
    cases y with
    | ok j' a =>
      rintro ⟨h3, h4⟩
      refine ⟨h3.trans hs, ?_⟩
      rcases h4 with h4 | ⟨h4, h5⟩
      · left; dsimp only at *; omega
      · right; exact ⟨h4, by dsimp only at *; omega⟩
    | _ => intro h3; simp only [Lin4] at *; omega
  | _ => simp only [bindC, free, hg, Lin4]; omega

theorem ruleHead_lt {i j : List Char} {a} (h : pair ident (opt genericParm) i = .ok j a) :
    j <:+ i ∧ j.length + 1 ≤ i.length := by
  obtain ⟨r1, s, h1, h2⟩ := pbind_ok h
  obtain ⟨r2, o, h3, h4⟩ := pbind_ok h2
  cases h4
  obtain ⟨h5, h6⟩ := ident_lt h1
  have h7 : j <:+ r1 := by
    cases o with
    | none => rw [opt_none h3]; exact List.suffix_refl _
    | some ps =>
      refine suffix_of (x := ⟨fun _ => none, fun _ => none, fun _ => none⟩) ?_ (opt_some h3)
      exact blames_delimited (blames_pair (blames_tag _) blames_ws) (blames_sepList1 (blames_pair (blames_tag _) blames_ws)
        (blames_terminated blames_ident blames_ws)) (blames_tag _)
  have := h7.wl
  exact ⟨h7.trans h5, by omega⟩

theorem lin_rule {i : List Char} : Lin4 i 0 (fun j => HaltRule (trim j)) (ruleC x i) := by
  unfold ruleC
  apply Lin4.pmap
  rw [pairC]
  cases hg : pair ident (opt genericParm) i with
  | ok j a =>
    obtain ⟨hj, hlj⟩ := ruleHead_lt hg
    have hwj := hj.wl
    have hs : trim j <:+ i := (trim_suffix j).trans hj
    have hl := (trim_suffix j).wl
    rw [bindC]
    simp only [free, hg, Nat.zero_add]
    change Lin4 _ _ _ (bindC (precededC (free ws) (ruleValC x) j) _)
    rw [preceded_ws]
    have h1 := lin_ruleVal (x := x) (i := trim j)
    revert h1
    rcases ruleValC x (trim j) with ⟨y, n⟩
    cases y with
    | ok j' a =>
      rintro ⟨h3, h4⟩
      refine ⟨h3.trans hs, ?_⟩
      simp only [bindC]
      rcases h4 with h4 | ⟨h4, h5⟩
      · left; dsimp only at *; omega
      · right; exact ⟨h4, by dsimp only at *; omega⟩
    | _ => intro h3; simp only [Lin4, bindC] at *; omega
  | _ => simp only [bindC, free, hg, Lin4]; omega

theorem lin_ruleWs {i : List Char} : Lin4 i 0 HaltRule (terminatedC (ruleC x) (free ws) i) := by
  have h1 := lin_rule (x := x) (i := i)
  rcases hy : ruleC x i with ⟨y, n⟩
  rw [hy] at h1
  cases y with
  | ok j a =>
    rw [terminated_ws hy]
    obtain ⟨h2, h3⟩ := h1
    have := (trim_suffix j).wl
    refine ⟨(trim_suffix j).trans h2, ?_⟩
    rcases h3 with h3 | ⟨h3, h4⟩
    · left; dsimp only at *; omega
    · right; exact ⟨h3, h4⟩
  | _ => simp only [terminatedC, bindC, hy]; exact h1

theorem skip_rule {i : List Char} (hi : HaltRule i) : Skip (terminatedC (ruleC x) (free ws) i) := by
  have hn : NotHead EAlpha i := by
    rcases hi with hi | ⟨c, u, rfl, hc⟩
    · exact hi.not (q := EAlpha) (by unfold EAlpha; decide)
    · rcases hc with rfl | rfl <;> exact notHead_cons (p := EAlpha) (by unfold EAlpha; decide) u
  obtain ⟨e, he⟩ := ident_err hn
  exact ⟨e, by simp only [terminatedC, ruleC, pmapC, pairC, bindC, free, pair, he, PR.bind]⟩

theorem lin_rules {q : PC α} (hq : ∀ i, Lin4 i 0 HaltRule (q i)) (hs : ∀ i, HaltRule i → Skip (q i)) :
    ∀ k i, (many0LoopC q k i).2 ≤ 2 * weight i := by
  intro k
  induction k with
  | zero => intro i; simp [many0LoopC]
  | succ k ih =>
    intro i
    rw [many0LoopC]
    have h1 := hq i
    revert h1
    rcases q i with ⟨y, n⟩
    cases y with
    | ok j a =>
      rintro ⟨h2, h3⟩
      have hlj := h2.wl
      dsimp only
      split
      · rcases h3 with h3 | ⟨-, h3⟩ <;> dsimp only at * <;> omega
      · rcases h3 with h3 | ⟨hd, h3⟩
        · have h4 := ih j
          revert h4
          rcases many0LoopC q k j with ⟨y, m⟩
          cases y <;> intro h4 <;> simp only [bindC] at * <;> omega
        · cases k with
          | zero => simp only [bindC, many0LoopC] at *; omega
          | succ k =>
            obtain ⟨e, he⟩ := hs j hd
            rw [many0LoopC, he]
            simp only [bindC] at *; omega
    | _ => intro h1; simp only [Lin4] at *; omega

theorem parseCddlC_weight (s : String) : (parseCddlC x s).2 ≤ 2 * weight s.toList := by
  unfold parseCddlC
  have h1 : (cddlC x s.toList).2 ≤ 2 * weight s.toList := by
    unfold cddlC
    rw [preceded_ws]
    have hl := (trim_suffix s.toList).wl
    have hq := fun i => lin_ruleWs (x := x) (i := i)
    have hk := fun i hi => skip_rule (x := x) (i := i) hi
    revert hq hk
    generalize terminatedC (ruleC x) (free ws) = q
    intro hq hk
    unfold many1C
    have h2 := hq (trim s.toList)
    revert h2
    rcases q (trim s.toList) with ⟨y, n⟩
    cases y with
    | ok j a =>
      rintro ⟨h3, h4⟩
      have hlj := h3.wl
      simp only [bindC, many0C]
      rcases h4 with h4 | ⟨hd, h4⟩
      · have h5 := lin_rules hq hk (j.length + 1) j
        revert h5
        rcases many0LoopC q (j.length + 1) j with ⟨y, m⟩
        cases y <;> intro h5 <;> dsimp only at * <;> omega
      · obtain ⟨e, he⟩ := hk j hd
        rw [many0LoopC, he]
        dsimp only at *; omega
    | _ => intro h2; simp only [Lin4, bindC] at *; omega
  unfold allConsumingC
  revert h1
  rcases cddlC x s.toList with ⟨y, n⟩
  cases y with
  | ok j a => intro h1; simp only [bindC]; split <;> exact h1
  | _ => exact id

/-- A text costs two calls for each character, doubled for each parenthesis and each quote. -/
theorem weight_le (i : List Char) : weight i ≤ 2 * i.length * 2 ^ (i.count '(' + i.count '\'') := by
  induction i with
  | nil => exact Nat.le_refl _
  | cons c u ih =>
    have hpos := Nat.one_le_two_pow (n := u.count '(' + u.count '\'')
    rw [weight]
    by_cases hc : c = '(' ∨ c = '\''
    · rw [if_pos hc]
      have e : (c :: u).count '(' + (c :: u).count '\'' = u.count '(' + u.count '\'' + 1 := by
        rcases hc with rfl | rfl
        · rw [List.count_cons_self, List.count_cons_of_ne (by decide)]; omega
        · rw [List.count_cons_self, List.count_cons_of_ne (by decide)]; omega
      rw [e, Nat.pow_succ, List.length_cons, Nat.mul_add, Nat.add_mul]
      rw [← Nat.mul_assoc, ← Nat.mul_assoc]
      omega
    · rw [if_neg hc]
      have e : (c :: u).count '(' + (c :: u).count '\'' = u.count '(' + u.count '\'' := by
        rw [List.count_cons_of_ne (fun h => hc (.inl h)), List.count_cons_of_ne (fun h => hc (.inr h))]
      rw [e, List.length_cons, Nat.mul_add, Nat.add_mul]
      omega

theorem parseCddlC_bound (s : String) :
    (parseCddlC x s).2 ≤ 4 * s.toList.length * 2 ^ (s.toList.count '(' + s.toList.count '\'') := by
  have h1 := parseCddlC_weight (x := x) s
  have h2 := weight_le s.toList
  have e : 4 * s.toList.length = 2 * (2 * s.toList.length) := by omega
  rw [e, Nat.mul_assoc]
  omega

end Cddl
