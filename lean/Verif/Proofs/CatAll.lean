import Verif.Proofs.Cat
import Verif.Proofs.ParseImage2

/-! # Texts put together: rules and schemas -/

namespace Cddl

open Ast (Ty Ty1 Ty2 MemberKeyVal GrpEntVal GrpEnt Group GrpChoice RuleVal)

/-! ## Group entries -/

/-- What may stand behind a rule in a text that is not a schema. -/
abbrev stops : List Char := [':', '^', '=', '/', '.', '<']

section
variable {r u : List Char} (B : Behind r u) {R : PRec} (h : R.Tops r u) (hI : R.Inside [] r) (hT : R.Takes)

theorem arrow_head {d : Char} (h1 : d ≠ '^') (h2 : d ≠ '=') (v : List Char) : ∃ e, arrowTail R (d :: v) = .err e := by
  obtain ⟨e1, h1⟩ := tag_begin (s := "^") (d := '^') (l := []) (by decide) h1 v
  obtain ⟨e2, h2⟩ := tag_begin (s := "=>") (d := '=') (l := ['>']) (by decide) h2 v
  exact ⟨e2, by simp only [arrowTail, pair, opt, terminated, preceded, h1, h2, PR.bind]⟩

theorem colon_head {d : Char} (h1 : d ≠ ':') (v : List Char) : ∃ e, memberkeyTail R (d :: v) = .err e := by
  obtain ⟨e1, h1⟩ := tag_begin (s := ":") (d := ':') (l := []) (by decide) h1 v
  exact ⟨e1, by simp only [memberkeyTail, pair, preceded, h1, PR.bind]⟩

include B h

theorem top_memberkeyTail : TSim r u false true [':'] ['/', '.', '<'] (memberkeyTail R) := by
  refine begin_top B (by decide) ⟨_, rfl⟩ (fun d v hd => colon_head hd v) fun v hv => ?_
  refine (pair_ws B (s := ":") (d := ':') (by decide) hv).bind id id (fun k a b hk _ => ?_) (fun _ a b _ => ?_)
    fun k a y h => h.not.elim
  · exact (top_ty B h k hk).mono id (fun _ => trivial) id fun _ h => h
  · rcases ty_nil h with ⟨e, h⟩ | h
    · rw [h]
      exact .div _ _ trivial
    · rw [h]
      exact .oofL _

theorem top_arrowTail : TSim r u false true ['^', '='] ['/', '.', '<'] (arrowTail R) := by
  have body : ∀ t, Closes 0 t → Top r u false true True False ['/', '.', '<'] (arrowTail R t) (arrowTail R (t ++ r)) := by
    intro t ht
    have cut : Top r u true true True False [] (opt (terminated (tag "^") ws) t) (opt (terminated (tag "^") ws) (t ++ r)) :=
      Top.opt ht (SD := []) (S := []) (top_ws B (top_lit B (O := false) (V := true) (SD := []) (S := []) (s := "^") (by decide) t ht))
    refine cut.bind id id (fun k a b hk e => ?_) (fun _ a b _ => ?_) fun k a y h => h.not.elim
    · rw [e rfl]
      refine Top.bind (O := false) (S := ['/', '.', '<']) (V := true) ?_ id id
        (fun k a b hk e => .near k hk fun hV => by rw [e hV]) (fun h => by cases h) fun k a y h => .dead _ _ _ h
      refine (top_lit B (V := false) (O := false) (SD := []) (S := []) (s := "=>") (by decide) k hk).bind (fun h => h.not.elim) id
        (fun k _ _ hk _ => ?_) (fun h => by cases h) fun k a y h => h.not.elim
      exact ws_then B (ty_nil h) hk fun c v _ _ hv => (top_ty B h _ hv).mono id (fun _ => trivial) id fun _ h => h
    · exact .div _ _ trivial
  intro t ht
  cases t with
  | nil =>
    cases r with
    | nil =>
      refine .err _ _
    | cons d v =>
      have hd := B.apart d v rfl
      obtain ⟨e, h⟩ := arrow_head (R := R) (d := d) (by rintro rfl; revert hd; decide) (by rintro rfl; revert hd; decide) v
      rw [List.nil_append, h]
      exact .err _ _
  | cons d v =>
    by_cases hd : d = '^' ∨ d = '='
    · exact (body _ ht).mono id (fun _ => .of_head (by simpa using hd) (by rcases hd with rfl | rfl <;> decide)) id fun _ h => h
    · obtain ⟨e, h⟩ := arrow_head (R := R) (fun h => hd (.inl h)) (fun h => hd (.inr h)) v
      obtain ⟨e', h'⟩ := arrow_head (R := R) (fun h => hd (.inl h)) (fun h => hd (.inr h)) (v ++ r)
      rw [List.cons_append, h, h']
      exact .err _ _

/-- Neither a key nor another choice goes on here. -/
def Mute (R : PRec) (k : List Char) : Prop :=
  (∃ e, memberkeyTail R k = .err e) ∧ (∃ e, arrowTail R k = .err e) ∧ ∃ e, slash k = .err e

omit B h in
theorem Mute.of {S k : List Char} (h : At S k) (hS : ∀ c ∈ [':', '^', '=', '/'], c ∉ S) : Mute R k := by
  obtain ⟨c, v, rfl, hc⟩ := h.head
  have ne : ∀ d ∈ [':', '^', '=', '/'], c ≠ d := by
    rintro d hd rfl
    rcases hc with hc | hc
    · exact hS c hd hc
    · revert hc
      simp only [List.mem_cons, List.not_mem_nil, or_false] at hd
      rcases hd with rfl | rfl | rfl | rfl <;> decide
  exact ⟨colon_head (ne _ (by simp)) v, arrow_head (ne _ (by simp)) (ne _ (by simp)) v, slash_at h (hS _ (by simp))⟩

omit B h in
theorem Mute.nil : Mute R [] := ⟨⟨_, rfl⟩, ⟨_, rfl⟩, ⟨_, rfl⟩⟩

omit h in
theorem Mute.second : Mute R u := by
  refine ⟨?_, ?_, slash_u B⟩
  · obtain ⟨d, v, rfl, hd⟩ := B.ne (c := ':') (by decide)
    exact colon_head hd v
  · obtain ⟨d, v, rfl, hd⟩ := B.head
    refine arrow_head ?_ ?_ v
    · rintro rfl
      revert hd
      decide
    · rintro rfl
      revert hd
      decide

omit B h in
theorem many0_slash_err {k : List Char} (h : ∃ e, slash k = .err e) : many0 (preceded slash (type1 R)) k = .ok k [] := by
  obtain ⟨e, h⟩ := h
  simp only [many0, many0Loop, preceded, h, PR.bind]

omit B h in
theorem Mute.rest {k : List Char} (h : Mute R k) (first : Ty1) : memberRest R first k = .ok k (.member [first]) := by
  obtain ⟨-, ⟨e, h1⟩, h2⟩ := h
  simp only [memberRest, h1, ifOk, many0_slash_err h2]

include hT in
theorem top_memberRest (first : Ty1) {D F : Prop} {O : Bool} {t : List Char} (ht : Closes 0 t) :
    Top r u O true D F stops (memberRest R first t) (memberRest R first (t ++ r)) := by
  have loop : TSim r u false true ['/'] ['.', '<'] (preceded slash (type1 R)) := by
    have e : preceded slash (type1 R) = preceded ws (preceded (terminated (tag "/") ws) (type1 R)) := by
      funext i
      simp only [preceded, slash, delimited]
      cases ws i <;> rfl
    rw [e]
    refine tail_top B (by decide) ⟨_, rfl⟩ (fun d v hd => ?_) fun v hv => ?_
    · obtain ⟨e, h⟩ := tag_begin (s := "/") (d := '/') (l := []) (by decide) hd v
      exact ⟨e, by simp only [preceded, terminated, h, PR.bind]⟩
    · refine (top_ws B (top_lit B (O := false) (V := false) (SD := []) (S := []) (s := "/") (by decide) _ hv)).bind
        (fun h => h.not.elim) id (fun k _ _ hk _ => ?_) (fun _ _ _ _ => ?_) fun k a y h => h.not.elim
      · exact (top_type1 B h k hk).mono id (fun _ => trivial) id fun _ h => h
      · rcases type1_nil h with ⟨e, h⟩ | h
        · rw [h]
          exact .div _ _ trivial
        · rw [h]
          exact .oofL _
  have alts : Top r u O true D F stops
      (ifOk (many0 (preceded slash (type1 R)) t) (fun i' ts => .ok i' (GrpEntVal.member (first :: ts)))
        (.err ⟨.unparseable, "grpent_member"⟩))
      (ifOk (many0 (preceded slash (type1 R)) (t ++ r)) (fun i' ts => .ok i' (GrpEntVal.member (first :: ts)))
        (.err ⟨.unparseable, "grpent_member"⟩)) := by
    have := many0Loop_top (D := False) loop (fun k hk => by
      obtain ⟨e, h⟩ := slash_at hk (by decide)
      exact ⟨e, by simp only [preceded, h, PR.bind]⟩) ((takes_slash.preceded (takes_type1 hT)).weak (by omega)) (t.length + 1)
        ((t ++ r).length + 1) t ht
    simp only [many0]
    generalize many0Loop (preceded slash (type1 R)) (t.length + 1) t = x at this ⊢
    generalize many0Loop (preceded slash (type1 R)) ((t ++ r).length + 1) (t ++ r) = y at this ⊢
    cases this with
    | near k h1 h2 => exact .near k h1 fun hV => by rw [h2 hV]
    | over h => cases h
    | dead k a y h => exact .dead _ _ _ (h.mono (by simp))
    | err e e' => exact .err _ _
    | div e y h => exact h.elim
    | fail e e' => exact .err _ _
    | divF e y h => exact h.elim
    | panic => exact .panic _
    | oofL => exact .oofL _
    | oofR => exact .oofR _
  have := top_arrowTail B h t ht
  simp only [memberRest]
  generalize arrowTail R t = x at this ⊢
  generalize arrowTail R (t ++ r) = y at this ⊢
  cases this with
  | near k h1 h2 => exact .near k h1 fun hV => by rw [h2 hV]
  | over h => cases h
  | dead k a y h => exact .dead _ _ _ (h.mono (by simp))
  | err e e' => exact alts
  | div e y h =>
    simp only [ifOk, many0_slash_err (slash_at h (by decide))]
    exact .dead _ _ _ (h.mono (by simp))
  | fail e e' => exact alts
  | divF e y h => exact h.elim
  | panic => exact .panic _
  | oofL => exact .oofL _
  | oofR => exact .oofR _

/-- What `grpentMember` does behind the first type. -/
def memberTail (R : PRec) (first : Ty1) : P GrpEntVal := fun i' =>
  match first with
  | .simple (.value _) | .simple (.typename _ _) =>
    ifOk (memberkeyTail R i') (fun i'' t => assembleBasicMember first t i'') (memberRest R first i')
  | _ => memberRest R first i'

omit B h in
theorem Mute.tail {k : List Char} (h : Mute R k) (first : Ty1) : memberTail R first k = .ok k (.member [first]) := by
  obtain ⟨e, h1⟩ := h.1
  unfold memberTail
  split <;> simp only [h1, ifOk, h.rest]

include hT in
theorem top_memberTail (first : Ty1) {D : Prop} {O : Bool} {t : List Char} (ht : Closes 0 t) :
    Top r u O true D True stops (memberTail R first t) (memberTail R first (t ++ r)) := by
  have key : Top r u O true D True stops
      (ifOk (memberkeyTail R t) (fun i'' t => assembleBasicMember first t i'') (memberRest R first t))
      (ifOk (memberkeyTail R (t ++ r)) (fun i'' t => assembleBasicMember first t i'') (memberRest R first (t ++ r))) := by
    have rest := top_memberRest B h hT first ht (D := D) (F := True) (O := O)
    have := top_memberkeyTail B h t ht
    generalize memberkeyTail R t = x at this ⊢
    generalize memberkeyTail R (t ++ r) = y at this ⊢
    cases this with
    | near k h1 h2 =>
      rw [h2 rfl]
      simp only [ifOk, assembleBasicMember]
      split
      · exact .near k h1 fun _ => rfl
      · split
        · exact .near k h1 fun _ => rfl
        · exact .fail _ _
      · exact .panic _
    | over h => cases h
    | dead k a y h =>
      have h : At stops k := h.mono (by simp)
      simp only [ifOk, assembleBasicMember]
      split
      · exact .dead _ _ _ h
      · split
        · exact .dead _ _ _ h
        · exact .divF _ _ trivial
      · exact .panic _
    | err e e' => exact rest
    | div e y h =>
      simp only [ifOk]
      have h1 : ∃ e, arrowTail R t = .err e := by
        obtain ⟨c, v, rfl, hc⟩ := h.head
        refine arrow_head ?_ ?_ v <;> (rintro rfl; revert hc; decide)
      obtain ⟨e1, h1⟩ := h1
      have : memberRest R first t = .ok t (.member [first]) := by
        simp only [memberRest, h1, ifOk, many0_slash_err (slash_at h (by decide))]
      rw [this]
      exact .dead _ _ _ (h.mono (by simp))
    | fail e e' => exact rest
    | divF e y h => exact h.elim
    | panic => exact .panic _
    | oofL => exact .oofL _
    | oofR => exact .oofR _
  unfold memberTail
  split
  · exact key
  · exact key
  · exact top_memberRest B h hT first ht

omit B h in
theorem grpentMember_eq (i : List Char) : grpentMember R i = (terminated (type1 R) ws i).bind fun i' first => memberTail R first i' := rfl

include hT in
theorem top_grpentMember {t : List Char} (ht : Closes 0 t) :
    Top r u true true (At ['~', '&'] t) True stops (grpentMember R t) (grpentMember R (t ++ r)) := by
  rw [grpentMember_eq, grpentMember_eq]
  refine (top_ws B (top_type1 B h t ht)).bind id False.elim (fun k a b hk e => ?_) (fun _ a b e => ?_) fun k a y hk => ?_
  · rw [e rfl]
    exact top_memberTail B h hT b hk
  · rw [e rfl, (Mute.nil (R := R)).tail, (Mute.second B (R := R)).tail]
    exact .over rfl fun _ => rfl
  · rw [(Mute.of (R := R) hk (by decide)).tail]
    exact .dead _ _ _ (hk.mono (by simp))

omit B h in
theorem paren_at {S k : List Char} (h : At S k) (hS : '(' ∉ S) : ∃ e, inParens R k = .err e := by
  obtain ⟨c, v, rfl, hc⟩ := h.head
  obtain ⟨e, h⟩ := chr_head (c := '(') (d := c) (by
    rintro rfl
    rcases hc with hc | hc
    · exact hS hc
    · revert hc
      decide) v
  exact ⟨e, by simp only [inParens, delimited, preceded, h, PR.bind]⟩

omit B h in
theorem ident_at {S k : List Char} (h : At S k) (hS : ∀ c ∈ S, ealphaChar c = false) : ∃ e, ident k = .err e := by
  obtain ⟨c, v, rfl, hc⟩ := h.head
  have : ealphaChar c = false := by
    rcases hc with hc | (rfl | rfl | rfl | rfl) | rfl
    · exact hS c hc
    all_goals decide
  exact ⟨_, by simp only [ident, recognize, preceded, ealpha, takeWhile1, List.takeWhile_cons, this]; rfl⟩

include hI hT

theorem top_grpentVal {t : List Char} (ht : Closes 0 t) :
    Top r u true true True True stops (grpentVal R t) (grpentVal R (t ++ r)) := by
  refine Top.alt (top_grpentMember B h hT ht) (Top.alt (D := False)
    ((top_ident B (V := true) (O := true) (SD := []) (S := stops) t ht).pmap _ |>.mono id (fun h => h.not) False.elim fun _ h => h)
    ((top_brackets B (c := '(') (d := ')') (O := true) (S := stops) (SD := []) (by decide) (by decide) hI.group t ht).pmap _ |>.mono id
      (fun _ => trivial) False.elim fun _ h => h) False.elim False.elim) (fun hk _ => ?_) fun _ => trivial
  obtain ⟨e1, h1⟩ := ident_at hk (by decide)
  obtain ⟨e2, h2⟩ := paren_at (R := R) hk (by decide)
  exact ⟨e2, by simp only [alt, pmap, h1, h2, PR.bind]⟩

omit B hI hT in
theorem grpentVal_nil : (∃ e, grpentVal R [] = .err e) ∨ grpentVal R [] = .oof := by
  have : (∃ e, grpentMember R [] = .err e) ∨ grpentMember R [] = .oof := by
    rw [grpentMember_eq]
    rcases terminated_nil (q := ws) (type1_nil h) with ⟨e, h⟩ | h
    · exact .inl ⟨e, by rw [h]; rfl⟩
    · exact .inr (by rw [h]; rfl)
  rcases this with ⟨e, h⟩ | h
  · exact .inl ⟨_, by simp only [grpentVal, alt, h]; rfl⟩
  · exact .inr (by simp only [grpentVal, alt, h])

theorem top_grpent {t : List Char} (ht : Closes 0 t) :
    Top r u true true True True stops (grpent R t) (grpent R (t ++ r)) := by
  refine Top.pmap (x := pair _ _ t) _ ?_
  have occ : Top r u true true True True [] (opt (terminated occur ws) t) (opt (terminated occur ws) (t ++ r)) := by
    refine Top.opt ht (SD := []) (S := []) (top_ws B (O := false) ?_)
    refine Top.mono (O := false) (D := At [] t) (F := False) (S := []) ((TSim.of (lev_occur ?_ ?_)) t ht) id id False.elim fun _ h => h
    · exact fun _ _ _ h => by cases h
    · exact fun _ => B.apart
  refine occ.bind id id (fun k a b hk e => ?_) (fun _ a b _ => ?_) fun k a y h => h.not.elim
  · rw [e rfl]
    exact (top_grpentVal B h hI hT hk).bind id id (fun k a b hk e => .near k hk fun hV => by rw [e hV])
      (fun ho a b e => .over ho fun hV => by rw [e hV]) fun k a y h => .dead _ _ _ h
  · rcases grpentVal_nil h with ⟨e, h⟩ | h
    · rw [h]
      exact .div _ _ trivial
    · rw [h]
      exact .oofL _

end

theorem uintU64_at {S k : List Char} (h : At S k) (hS : ∀ c ∈ S, isDigit c = false) : ∃ e, uintU64 k = .err e := by
  obtain ⟨c, v, rfl, hc⟩ := h.head
  have hc : isDigit c = false := by
    rcases hc with hc | (rfl | rfl | rfl | rfl) | rfl
    · exact hS c hc
    all_goals decide
  obtain ⟨e1, h1⟩ := tag_begin (s := "0x") (d := '0') (l := ['x']) (by decide) (c := c) (by rintro rfl; cases hc) v
  obtain ⟨e2, h2⟩ := tag_begin (s := "0b") (d := '0') (l := ['b']) (by decide) (c := c) (by rintro rfl; cases hc) v
  obtain ⟨e3, h3⟩ := tag_begin (s := "0") (d := '0') (l := []) (by decide) (c := c) (by rintro rfl; cases hc) v
  have h4 : oneOfChars "123456789" (c :: v) = .err (unparseable (c :: v)) := by
    have : ("123456789".toList.contains c) = false := by
      cases hb : "123456789".toList.contains c with
      | false => rfl
      | true =>
        have : c ∈ "123456789".toList := by simpa using hb
        have : c ∈ ['1', '2', '3', '4', '5', '6', '7', '8', '9'] := this
        simp only [List.mem_cons, List.not_mem_nil, or_false] at this
        rcases this with rfl | rfl | rfl | rfl | rfl | rfl | rfl | rfl | rfl <;> cases hc
    simp only [oneOfChars, satisfy, this]
    rfl
  exact ⟨_, by simp only [uintU64, mapResFail, uint, uintHex, uintBinary, uintDecimal, alt, pmap, preceded, pair, recognize, h1, h2, h3, h4, PR.bind]; rfl⟩

theorem occur_at {S k : List Char} (h : At S k) (hS : ∀ c ∈ S, isDigit c = false) (hs : ∀ c ∈ ['*', '+', '?'], c ∉ S) :
    ∃ e, occur k = .err e := by
  obtain ⟨e1, h1⟩ := uintU64_at h hS
  obtain ⟨e2, h2⟩ := tag_at (s := "*") (d := '*') (l := []) (by decide) h (hs _ (by simp)) (by decide)
  obtain ⟨e3, h3⟩ := tag_at (s := "+") (d := '+') (l := []) (by decide) h (hs _ (by simp)) (by decide)
  obtain ⟨e4, h4⟩ := tag_at (s := "?") (d := '?') (l := []) (by decide) h (hs _ (by simp)) (by decide)
  exact ⟨e4, by simp only [occur, occurStar, alt, pmap, mapRes, pair, opt, h1, h2, h3, h4, PR.bind]⟩

/-! ## Rules -/

section
variable {r u : List Char} (B : Behind r u) (x : ParseExt)

include B in
/-- The recursive parsers with the budget of the code's texts. -/
theorem top_parserRec : (parserRec x).Tops r u := by
  refine ⟨fun t ht => ?_, .inl ⟨_, rfl⟩⟩
  have := (top_parsers B x (2 * t.length + 2 * (t ++ r).length + 2)).type2 t ht
  rwa [(parsers_enough (by omega)).1, (parsers_enough (by omega)).1] at this

theorem in_parserRec (r r' : List Char) : (parserRec x).Inside r r' := by
  constructor
  · intro n t ht
    have := (in_parsers r r' x (2 * (t ++ r).length + 2 * (t ++ r').length + 2)).type2 n t ht
    rwa [(parsers_enough (by omega)).1, (parsers_enough (by omega)).1] at this
  · intro n t ht
    have := (in_parsers r r' x (2 * (t ++ r).length + 2 * (t ++ r').length + 2)).group n t ht
    rwa [(parsers_enough (by omega)).2, (parsers_enough (by omega)).2] at this

include B

theorem top_genericParm : TSim r u false true ['<'] [] genericParm := by
  refine begin_top B (by decide) ⟨_, rfl⟩ (fun d v hd => ?_) fun v hv => ?_
  · obtain ⟨e, h⟩ := tag_begin (s := "<") (d := '<') (l := []) (by decide) hd v
    exact ⟨e, by simp only [genericParm, delimited, preceded, pair, h, PR.bind]⟩
  · have item : TSim r u true true [] [] (terminated ident ws) := fun t ht => top_ws B (top_ident B (O := false) t ht)
    have list : TSim r u true true [] [','] (sepList1 (pair (tag ",") ws) (terminated ident ws)) :=
      sepList1_top B (top_comma B) ⟨_, rfl⟩ (comma_u B) (.inl ⟨_, rfl⟩) item (fun k hk => hk.not.elim) fun t k b => comma_begin
    refine (pair_ws B (s := "<") (d := '<') (by decide) hv).bind id id (fun k a b hk _ => ?_) (fun _ a b _ => ?_)
      fun k a y h => h.not.elim
    · refine ((list k hk).mono id (D' := True) (fun _ => trivial) id fun _ h => h).bind id id (fun k a b hk e => ?_)
        (fun _ a b _ => ?_) fun k a y hk => ?_
      · rw [e rfl]
        exact (top_lit B (V := false) (O := false) (SD := []) (S := []) (s := ">") (by decide) k hk).bind (fun h => h.not.elim) id
          (fun k _ _ hk _ => .near k hk fun _ => rfl) (fun h => by cases h) fun k a y h => h.not.elim
      · exact .div _ _ trivial
      · obtain ⟨e, h⟩ := tag_at (s := ">") (d := '>') (l := []) (by decide) hk (by decide) (by decide)
        rw [h]
        exact .div _ _ trivial
    · exact .div _ _ trivial

theorem top_ruleVal {t : List Char} (ht : Closes 0 t) :
    Top r u true true True True stops (ruleVal x t) (ruleVal x (t ++ r)) := by
  have hR := top_parserRec B x
  refine (top_lit B (V := false) (O := false) (SD := []) (S := []) (s := "=") (by decide) t ht).bind (fun h => h.not.elim) False.elim
    (fun k _ _ hk _ => ?_) (fun h => by cases h) fun k a y h => h.not.elim
  refine ws_then B (.inl ⟨_, rfl⟩) hk fun c v hs _ hv => ?_
  refine Top.alt (D := At ['~', '&'] (c :: v))
    (((top_ty B hR _ hv).pmap _).mono (fun h => by cases h) id False.elim (by simp))
    ((top_grpent B hR (in_parserRec x [] r) (takes_parserRec x) hv).pmap _) (fun hk he => ?_) fun _ => trivial
  obtain ⟨e, he⟩ := he
  have he : ty (parserRec x) (c :: v) = .err e := pmap_err he
  obtain ⟨e1, h1⟩ := ty_err_inv he
  rw [← parserRec_type2_eq] at h1
  obtain ⟨e2, h2⟩ := occur_at hk (by decide) (by decide)
  obtain ⟨e3, h3⟩ := ident_at hk (by decide)
  obtain ⟨e4, h4⟩ := paren_at (R := parserRec x) hk (by decide)
  exact ⟨e4, by simp only [pmap, grpent, pair, opt, terminated, grpentVal, alt, grpentMember, type1, h1, h2, h3, h4, PR.bind]⟩

theorem top_rule {t : List Char} (ht : Closes 0 t) :
    Top r u true true True True stops (rule x t) (rule x (t ++ r)) := by
  refine Top.pmap (x := pair _ _ t) _ ?_
  have head : Top r u false true True True ['<'] (pair ident (opt genericParm) t) (pair ident (opt genericParm) (t ++ r)) := by
    refine (top_ident B (V := true) (O := false) (SD := []) (S := []) t ht).bind (fun h => h.not.elim) False.elim
      (fun k a b hk e => ?_) (fun h => by cases h) fun k a y h => h.not.elim
    rw [e rfl]
    exact (Top.opt (D := True) hk (top_genericParm B k hk)).bind id False.elim (fun k a b hk e => .near k hk fun hV => by rw [e hV])
      (fun h => by cases h) fun k a y h => .dead _ _ _ h
  refine head.bind id id (fun k a b hk e => ?_) (fun h => by cases h) fun k a y hk => ?_
  · rw [e rfl]
    refine Top.bind (O := true) (S := stops) (V := true) (ws_then B (.inl ⟨_, rfl⟩) hk fun c v _ _ hv => top_ruleVal B x hv) id id
      (fun k a b hk e => .near k hk fun hV => by rw [e hV]) (fun ho a b e => .over ho fun hV => by rw [e hV])
      fun k a y h => .dead _ _ _ h
  · obtain ⟨c, v, w, e, hc, _⟩ := hk.ws
    have hc : c = '<' := by simpa using hc
    subst hc
    simp only [preceded, e, PR.bind]
    exact .div _ _ trivial

/-- A rule and the rules behind it. -/
theorem items_top {ds : Ast.Cddl} (hd : ∀ m, many0Loop (terminated (rule x) ws) m u = .oof ∨
      many0Loop (terminated (rule x) ws) m u = .ok [] ds) :
    ∀ (n : Nat) {k k1 : List Char} {a : Ast.Rule} {rs : Ast.Cddl}, Closes 0 k → terminated (rule x) ws k = .ok k1 a →
      many0Loop (terminated (rule x) ws) n k1 = .ok [] rs → terminated (rule x) ws (k ++ r) = .oof ∨
      ∃ k2, terminated (rule x) ws (k ++ r) = .ok k2 a ∧ ∀ m, many0Loop (terminated (rule x) ws) m k2 = .oof ∨
        many0Loop (terminated (rule x) ws) m k2 = .ok [] (rs ++ ds)
  | 0, _, _, _, _, _, _, h => by cases h
  | n + 1, k, k1, a, rs, hk, h1, h2 => by
    have h := top_ws B (top_rule B x hk)
    have hT : Takes 1 (terminated (rule x) ws) := (takes_rule x).terminated (m := 0) takes_ws
    generalize hy : terminated (rule x) ws (k ++ r) = y at h
    rw [h1] at h
    cases h with
    | near _ h3 h4 =>
      refine .inr ⟨_, by rw [h4 rfl], fun m => ?_⟩
      cases m with
      | zero => exact .inl rfl
      | succ m =>
        simp only [many0Loop] at h2 ⊢
        cases hi : terminated (rule x) ws k1 with
        | ok k1' a' =>
          rw [hi] at h2
          dsimp only at h2
          split at h2
          · cases h2
          · cases hl : many0Loop (terminated (rule x) ws) n k1' with
            | ok k3 rs' =>
              rw [hl] at h2
              cases h2
              rcases items_top hd n h3 hi hl with h5 | ⟨k2, h5, h6⟩
              · rw [h5]
                exact .inl rfl
              · rw [h5]
                dsimp only
                have := hT _ _ _ h5
                rw [if_neg (by omega)]
                rcases h6 m with h6 | h6
                · rw [h6]
                  exact .inl rfl
                · rw [h6]
                  exact .inr rfl
            | _ => rw [hl] at h2; cases h2
        | err e =>
          rw [hi] at h2
          cases h2
          -- the second run has not taken the white space
          exfalso
          have hs : WsTo r r := by
            simp only [terminated] at hy
            cases hr : rule x (k ++ r) with
            | ok s0 c =>
              rw [hr] at hy
              simp only [PR.bind] at hy
              cases hw : ws s0 with
              | ok s1 d =>
                rw [hw] at hy
                cases hy
                exact ws_stable hw
              | _ => rw [hw] at hy; cases hy
            | _ => rw [hr] at hy; cases hy
          have := hs.unique B.to
          obtain ⟨d, v, rfl, hα⟩ := B.head
          have h1 := tame_ealpha d hα
          rcases B.apart d v this with h2 | h2
          · exact h1.2.2.2 h2
          · exact h1.2.2.1 h2
        | _ => rw [hi] at h2; cases h2
    | over _ h4 =>
      refine .inr ⟨_, by rw [h4 rfl], fun m => ?_⟩
      have : rs = [] := by
        simp only [many0Loop] at h2
        have : terminated (rule x) ws [] = .err (unparseable []) := rfl
        rw [this] at h2
        cases h2
        rfl
      subst this
      exact hd m
    | dead _ _ _ h3 =>
      exfalso
      have : ∃ e, terminated (rule x) ws k1 = .err e := by
        obtain ⟨e, h⟩ := ident_at h3 (by decide)
        exact ⟨e, by simp only [terminated, rule, pmap, pair, h, PR.bind]⟩
      obtain ⟨e, h⟩ := this
      simp only [many0Loop, h] at h2
      cases h2
      obtain ⟨_, _, h, _⟩ := h3.head
      cases h
    | oofR => exact .inl rfl

end

theorem many0Loop_agree {α : Type} {p : P α} {n : Nat} {i k : List Char} {as : List α} (h : many0Loop p n i = .ok k as) (m : Nat) :
    many0Loop p m i = .oof ∨ many0Loop p m i = .ok k as := by
  have hs := many0Loop_same (p := p) (I := fun _ => False) (r := []) (r' := []) (V := true) (loc := false) rfl n m i
  generalize many0Loop p n i = x at h hs
  generalize many0Loop p m i = y at hs ⊢
  cases hs with
  | near _ h1 => exact False.elim h1
  | far _ _ e => cases h; rw [e rfl]; exact .inr rfl
  | oofR => exact .inl rfl
  | _ => cases h

/-- Schemas put together, with white space between them. -/
theorem cddl_cat {x : ParseExt} {s t w : List Char} {c d : Ast.Cddl} (hs : Closes 0 s) (hw : WS w) (hne : w ≠ [])
    (h : cddl x s = .ok [] c) (h' : cddl x t = .ok [] d) : cddl x (s ++ (w ++ t)) = .ok [] (c ++ d) := by
  -- the second schema
  simp only [cddl, preceded] at h'
  obtain ⟨u, hu⟩ := wsTo_total t
  obtain ⟨_, eu⟩ := hu.ws
  rw [eu] at h'
  simp only [PR.bind, many1] at h'
  have hT : Takes 1 (terminated (rule x) ws) := (takes_rule x).terminated (m := 0) takes_ws
  cases hi : terminated (rule x) ws u with
  | ok k a =>
    rw [hi] at h'
    simp only at h'
    cases hl : many0 (terminated (rule x) ws) k with
    | ok k' as =>
      rw [hl] at h'
      cases h'
      have B : Behind (w ++ t) u := by
        refine ⟨?_, hw.to hu, ?_⟩
        · cases hw with
          | nil => exact absurd rfl hne
          | blank hc _ => intro c t e; cases e; exact .inl hc
          | comment _ _ => intro c t e; cases e; exact .inr rfl
          | commentCr _ _ => intro c t e; cases e; exact .inr rfl
        · cases u with
          | nil => cases hi
          | cons d v =>
            cases hd : ealphaChar d with
            | true => exact ⟨d, v, rfl, hd⟩
            | false =>
              exfalso
              have : ∃ e, ident (d :: v) = .err e :=
                ⟨_, by simp only [ident, recognize, preceded, ealpha, takeWhile1, List.takeWhile_cons, hd]; rfl⟩
              obtain ⟨e, h⟩ := this
              simp only [terminated, rule, pmap, pair, h, PR.bind] at hi
              cases hi
      have hd : ∀ m, many0Loop (terminated (rule x) ws) m u = .oof ∨ many0Loop (terminated (rule x) ws) m u = .ok [] (a :: as) := by
        intro m
        cases m with
        | zero => exact .inl rfl
        | succ m =>
          simp only [many0Loop, hi]
          have := hT _ _ _ hi
          rw [if_neg (by omega)]
          rcases many0Loop_agree hl m with h | h
          · rw [h]
            exact .inl rfl
          · rw [h]
            exact .inr rfl
      -- the first schema
      have key : cddl x (s ++ (w ++ t)) = .oof ∨ cddl x (s ++ (w ++ t)) = .ok [] (c ++ (a :: as)) := by
        simp only [cddl, preceded] at h ⊢
        rcases ws_top B hs with ⟨w1, w2, e1, e2⟩ | ⟨d, v, w1, w2, e1, e2, h3, _, _⟩
        · rw [e1] at h
          cases h
        · rw [e1] at h
          rw [e2]
          simp only [PR.bind, many1] at h ⊢
          cases hi : terminated (rule x) ws (d :: v) with
          | ok k1 a1 =>
            rw [hi] at h
            simp only at h
            cases hl : many0 (terminated (rule x) ws) k1 with
            | ok k1' as1 =>
              rw [hl] at h
              cases h
              rcases items_top B x hd _ h3 hi hl with h5 | ⟨k2, h5, h6⟩
              · rw [h5]
                exact .inl rfl
              · rw [h5]
                simp only [many0]
                rcases h6 (k2.length + 1) with h6 | h6
                · rw [h6]
                  exact .inl rfl
                · rw [h6]
                  exact .inr rfl
            | _ => rw [hl] at h; cases h
          | _ => rw [hi] at h; cases h
      rcases key with h | h
      · exact absurd h (cddl_not_oof _)
      · exact h
    | _ => rw [hl] at h'; cases h'
  | _ => rw [hi] at h'; cases h'

end Cddl
