import Verif.Proofs.GapTok

/-!
# What the parser makes of white space: the grammar
-/

namespace Cddl

open Ast (Ty Ty1 Ty2 MemberKeyVal GrpEntVal GrpEnt Group GrpChoice RuleVal)

/-! ## How much the parsers consume -/

theorem takes_ident : Takes 1 ident := takes_of_parses exactRel (fun _ => sound_ident) fun _ _ h => h.2.ne

theorem takes_value (x : ParseExt) : Takes 1 (value x) :=
  takes_of_parses exactRel (fun _ => sound_value x) fun _ _ h => h.ne

/-- What is needed of the recursive parsers. -/
structure PRec.Takes (R : PRec) : Prop where
  type2 : Cddl.Takes 1 R.type2
  group : Cddl.Takes 0 R.group

theorem takes_slash : Takes 1 slash :=
  ((takes_ws.preceded ((takes_tag (t := "/") (by decide)).terminated takes_ws)).weak (by omega))

theorem takes_comma : Takes 1 (pair (tag ",") ws) := (takes_tag (t := ",") (by decide)).pair takes_ws

section
variable {R : PRec} (h : R.Takes)
include h

theorem takes_type1 : Takes 1 (type1 R) := by
  refine .pmap _ (h.type2.pair (m := 0) (.opt (n := 1) ?_))
  refine (takes_ws.preceded (n := 0) (m := 1) (.pair (n := 1) (m := 0) ?_ ?_)).weak (by omega)
  · exact .alt (takes_tag (by decide)) (.alt (takes_tag (by decide))
      ((takes_tag (t := ".") (by decide)).preceded (m := 0) (takes_ident.weak (by omega))))
  · exact (takes_ws.preceded (h.type2.weak (m := 0) (by omega)))

theorem takes_ty : Takes 1 (ty R) := .sepList1 (takes_type1 h) takes_slash

theorem takes_nameGeneric : Takes 1 (nameGenericP R) := by
  refine .pmap _ (takes_ident.pair (m := 0) (.opt (n := 1) ?_))
  refine Takes.weak (n := 1 + (1 + 1)) (.preceded (n := 1) (m := 1 + 1) ?_ (.terminated (n := 1) (m := 1) (.sepList1 (m := 1) ?_ takes_comma)
    (takes_tag (by decide)))) (by omega)
  · exact (takes_tag (by decide)).pair (m := 0) takes_ws
  · exact (takes_type1 h).terminated (m := 0) takes_ws

theorem takes_brackets {α : Type} {c d : Char} {p : P α} (hp : Takes 0 p) :
    Takes 1 (delimited (chr c) (delimited ws p ws) (chr d)) := by
  have h1 : Takes (0 + (0 + 0)) (delimited ws p ws) := takes_ws.preceded (hp.terminated takes_ws)
  exact (((takes_satisfy _).preceded (h1.terminated (takes_satisfy _))).weak (by omega))

theorem takes_grpentVal : Takes 1 (grpentVal R) := by
  refine .alt ?_ (.alt (.pmap _ takes_ident) (.pmap _ (takes_brackets h h.group)))
  intro i k v e
  have t1 : Takes 1 (terminated (type1 R) ws) := (takes_type1 h).terminated (m := 0) takes_ws
  unfold grpentMember at e
  cases hp : terminated (type1 R) ws i with
  | ok s first =>
    rw [hp] at e
    have l1 := t1 _ _ _ hp
    simp only [PR.bind] at e
    have rest : ∀ {k v}, memberRest R first s = .ok k v → k.length ≤ s.length := by
      intro k v e
      unfold memberRest at e
      cases ha : arrowTail R s with
      | ok s2 p =>
        rw [ha] at e
        cases e
        have : Takes 0 (arrowTail R) := by
          refine (Takes.pair (n := 0) (m := 1) (.opt (n := 1) ((takes_tag (by decide)).terminated (m := 0) takes_ws))
            (.preceded (n := 1) (m := 0) (takes_tag (by decide)) ?_)).weak (by omega)
          exact takes_ws.preceded ((takes_ty h).weak (m := 0) (by omega))
        exact this _ _ _ ha
      | err _ | fail _ =>
        rw [ha] at e
        simp only [ifOk] at e
        cases hm : many0 (preceded slash (type1 R)) s with
        | ok s2 p =>
          rw [hm] at e
          cases e
          have : Takes 0 (many0 (preceded slash (type1 R))) := .many0 (takes_slash.preceded (takes_type1 h))
          exact this _ _ _ hm
        | _ => rw [hm] at e; cases e
      | _ => rw [ha] at e; cases e
    have tail : ∀ {k v}, ifOk (memberkeyTail R s) (fun i'' t => assembleBasicMember first t i'') (memberRest R first s) = .ok k v →
        k.length ≤ s.length := by
      intro k v e
      cases ha : memberkeyTail R s with
      | ok s2 p =>
        rw [ha] at e
        have l2 : Takes 0 (memberkeyTail R) := by
          refine (Takes.preceded (n := 1) (m := 0) (.pair (m := 0) (takes_tag (by decide)) takes_ws)
            ((takes_ty h).weak (by omega))).weak (by omega)
        have l2 := l2 _ _ _ ha
        have : k = s2 := by
          simp only [ifOk, assembleBasicMember] at e
          repeat' split at e
          all_goals cases e
          all_goals rfl
        subst this
        omega
      | err _ | fail _ =>
        rw [ha] at e
        exact rest e
      | _ => rw [ha] at e; cases e
    split at e
    · have := tail e; omega
    · have := tail e; omega
    · have := rest e; omega
  | _ => rw [hp] at e; cases e

theorem takes_grpent : Takes 1 (grpent R) := by
  refine .pmap _ (Takes.pair (n := 0) (m := 1) ?_ (takes_grpentVal h))
  refine .opt (n := 0) (Takes.terminated (n := 0) (m := 0) ?_ takes_ws)
  intro i k o e
  have := sound_occur (n := i.length) i (Nat.le_refl _)
  rw [e] at this
  obtain ⟨s, h1, -⟩ := this
  exact exactRel.le h1

theorem takes_grpchoice : Takes 0 (grpchoice R) := by
  refine .many0 (n := 1) ((takes_grpent h).terminated (m := 0) (.pmap _ ?_))
  exact takes_ws.pair (m := 0) (.opt (n := 1) takes_comma)

theorem takes_group : Takes 0 (group R) := by
  refine .pmap _ ((takes_grpchoice h).pair (m := 0) (.many0 (n := 0) ?_))
  refine (Takes.preceded (n := 1) (m := 0) ?_ (takes_grpchoice h)).weak (by omega)
  exact (takes_ws.preceded ((takes_tag (t := "//") (by decide)).terminated takes_ws)).weak (by omega)

theorem takes_type2 (x : ParseExt) : Takes 1 (type2 x R) := by
  refine .alt (.pmap _ (takes_value x)) (.alt (.pmap _ (takes_nameGeneric h)) (.alt (.pmap _ (takes_brackets h ?_))
    (.alt (.pmap _ (takes_brackets h h.group)) (.alt (.pmap _ (takes_brackets h h.group)) (.alt (.pmap _ ?_)
    (.alt (.pmap _ ?_) (.pmap _ ?_)))))))
  · exact (takes_ty h).weak (by omega)
  · exact ((takes_tag (t := "~") (by decide)).preceded (takes_ws.preceded (takes_nameGeneric h))).weak (by omega)
  · exact ((takes_tag (t := "&") (by decide)).preceded (takes_ws.preceded (takes_brackets h h.group))).weak (by omega)
  · exact ((takes_tag (t := "&") (by decide)).preceded (takes_ws.preceded (takes_nameGeneric h))).weak (by omega)

end

theorem takes_parsers (x : ParseExt) : ∀ k, (parsers x k).Takes
  | 0 => ⟨fun _ _ _ e => (by cases e), fun _ _ _ e => (by cases e)⟩
  | k + 1 => ⟨takes_type2 (takes_parsers x k) x, takes_group (takes_parsers x k)⟩

/-! ## The same on both texts -/

/-- The two texts from the gap on. -/
structure Gaps (r r' : List Char) : Prop where
  left : Apart r
  right : Apart r'
  trim : ∃ u, WsTo r u ∧ WsTo r' u

/-- The two texts from the gap on, and what is known of reading white space there.  With `loc`, reading stays before the
gap. -/
structure Gap (loc : Bool) (r r' : List Char) : Prop where
  left : Apart r
  right : Apart r'
  ws : Sim Outside Outside r r' loc false ws

theorem Gaps.gap {r r' : List Char} (g : Gaps r r') : Gap false r r' := by
  refine ⟨g.left, g.right, fun t ht => ?_⟩
  obtain ⟨u, h1, h2⟩ := g.trim
  rcases ht.white with hw | ⟨w, v, rfl, hw, hv, hs⟩
  · obtain ⟨a, e1⟩ := (hw.to h1).ws
    obtain ⟨b, e2⟩ := (hw.to h2).ws
    rw [e1, e2]
    exact .far u rfl fun h => by cases h
  · obtain ⟨a, e1⟩ := (hw.to (hs r)).ws
    obtain ⟨b, e2⟩ := (hw.to (hs r')).ws
    rw [List.append_assoc, List.append_assoc, e1, e2]
    exact .near v hv fun h => by cases h

/-- White space ends before a text that is no white space. -/
theorem gap_stuck {r : List Char} (ha : Apart r) (h : WsTo r r) : Gap true r r := by
  refine ⟨ha, ha, fun t ht => ?_⟩
  rcases ht.white with hw | ⟨w, v, rfl, hw, hv, hs⟩
  · obtain ⟨a, e1⟩ := (hw.to h).ws
    rw [e1]
    exact .near [] rfl fun h => by cases h
  · obtain ⟨a, e1⟩ := (hw.to (hs r)).ws
    rw [List.append_assoc, e1]
    exact .near v hv fun h => by cases h

section
variable {r r' : List Char} {loc V : Bool} (g : Gap loc r r')
include g

theorem sim_lit' {s : String} (h : tameTag s = true) : Sim Outside Outside r r' loc V (tag s) := (sim_lit g.left g.right h).weak
theorem sim_chr' {d : Char} (h : d ≠ '"' ∧ d ≠ '\'' ∧ d ≠ ';' ∧ ¬ Blank d) : Sim Outside Outside r r' loc V (chr d) :=
  (sim_chr g.left g.right h).weak
theorem sim_ident' : Sim Outside Outside r r' loc V ident := (sim_ident g.left g.right).weak

theorem sim_slash : Sim Outside Outside r r' loc false slash := g.ws.delimited (sim_lit' g (by decide)) g.ws
theorem sim_comma : Sim Outside Outside r r' loc false (pair (tag ",") ws) := (sim_lit' g (by decide)).pair g.ws

theorem sim_optcom : Sim Outside Outside r r' loc V optcom := by
  have : Sim Outside Outside r r' loc false (pair ws (opt (pair (tag ",") ws))) := g.ws.pair (sim_comma g).opt
  exact this.const ()

/-- The recursive parsers do the same on both texts. -/
structure PRec.Sim (r r' : List Char) (loc : Bool) (R : PRec) : Prop where
  type2 : Cddl.Sim Outside Outside r r' loc true R.type2
  group : Cddl.Sim Outside Outside r r' loc true R.group

variable {R : PRec} (h : R.Sim r r' loc) (hT : R.Takes)
include h

theorem sim_type1 : Sim Outside Outside r r' loc true (type1 R) := by
  refine .pmap _ (h.type2.pair (.opt (g.ws.preceded (.pair ?_ (g.ws.preceded h.type2)))))
  exact .alt (sim_lit' g (by decide)) (.alt (sim_lit' g (by decide))
    ((sim_lit' g (by decide)).preceded (sim_ident' g)))

theorem sim_ty : Sim Outside Outside r r' loc true (ty R) := (sim_type1 g h).sepList1 (sim_slash g) fun _ => takes_slash

theorem sim_nameGeneric : Sim Outside Outside r r' loc true (nameGenericP R) := by
  refine .pmap _ ((sim_ident' g).pair (.opt (.delimited ?_ (.sepList1 ?_ (sim_comma g) fun _ => takes_comma) (sim_lit' g (by decide)))))
  · exact (sim_lit' g (by decide)).pair g.ws
  · exact (sim_type1 g h).terminated g.ws

omit h in
theorem sim_brackets {α : Type} {c d : Char} {p : P α} (hc : c ≠ '"' ∧ c ≠ '\'' ∧ c ≠ ';' ∧ ¬ Blank c)
    (hd : d ≠ '"' ∧ d ≠ '\'' ∧ d ≠ ';' ∧ ¬ Blank d) (hp : Sim Outside Outside r r' loc true p) :
    Sim Outside Outside r r' loc true (delimited (chr c) (delimited ws p ws) (chr d)) :=
  (sim_chr' g hc).delimited (g.ws.delimited hp g.ws) (sim_chr' g hd)

theorem sim_memberkeyTail : Sim Outside Outside r r' loc true (memberkeyTail R) :=
  .preceded (.pair (sim_lit' g (by decide)) g.ws) (sim_ty g h)

theorem sim_arrowTail : Sim Outside Outside r r' loc true (arrowTail R) :=
  .pair (.opt ((sim_lit' g (by decide)).terminated g.ws))
    ((sim_lit' g (by decide)).preceded (g.ws.preceded (sim_ty g h)))

include hT in
theorem sim_memberRest (first : Ty1) : Sim Outside Outside r r' loc true (memberRest R first) := fun t ht =>
  (sim_arrowTail g h t ht).ifOk (fun t1 a b ht e => .near t1 ht fun _ => by rw [e rfl])
    (fun hl k a b e => .far k hl fun _ => by rw [e rfl])
    ((((sim_slash g).preceded (sim_type1 g h)).many0 (fun _ => (takes_slash.preceded (takes_type1 hT)).weak (by omega)) t ht).ifOk
      (fun t1 a b ht e => .near t1 ht fun _ => by rw [e rfl]) (fun hl k a b e => .far k hl fun _ => by rw [e rfl]) (.err _ _))

include hT in
theorem sim_grpentMember : Sim Outside Outside r r' loc true (grpentMember R) := fun t ht => by
  refine Rel.bind ((sim_type1 g h).terminated g.ws t ht) (fun t1 a b ht e => ?_) fun hl k a b e => ?_
  · rw [e rfl]
    have tail := (sim_memberkeyTail g h t1 ht).ifOk (W := true) (f := fun i'' t => assembleBasicMember b t i'')
      (g := fun i'' t => assembleBasicMember b t i'')
      (fun t1 c d ht e => by
        rw [e rfl]
        simp only [assembleBasicMember]
        split
        · exact .near t1 ht fun _ => rfl
        · split
          · exact .near t1 ht fun _ => rfl
          · exact .fail _ _
        · exact .panic)
      (fun hl k c d e => by rw [e rfl]; exact .same hl) (sim_memberRest g h hT b t1 ht)
    split
    · exact tail
    · exact tail
    · exact sim_memberRest g h hT b t1 ht
  · rw [e rfl]
    exact .same hl

include hT in
theorem sim_grpent : Sim Outside Outside r r' loc true (grpent R) := by
  refine .pmap _ (.pair (.opt ((sim_occur g.left g.right).weak.terminated g.ws)) (.alt (sim_grpentMember g h hT)
    (.alt (.pmap _ (sim_ident' g)) (.pmap _ (sim_brackets g (by decide) (by decide) h.group)))))

include hT in
theorem sim_grpchoice : Sim Outside Outside r r' loc true (grpchoice R) := by
  refine .many0 ((sim_grpent g h hT).terminated (sim_optcom g)) fun _ => (takes_grpent hT).terminated (m := 0) (.pmap _ ?_)
  exact takes_ws.pair (m := 0) (.opt (n := 1) takes_comma)

include hT in
theorem sim_group : Sim Outside Outside r r' loc true (group R) := by
  refine .pmap _ ((sim_grpchoice g h hT).pair (.many0 (.preceded (g.ws.delimited (sim_lit' g (by decide)) g.ws)
    (sim_grpchoice g h hT)) fun _ => ?_))
  refine (Takes.preceded (n := 1) (m := 0) ?_ (takes_grpchoice hT)).weak (by omega)
  exact (takes_ws.preceded ((takes_tag (t := "//") (by decide)).terminated takes_ws)).weak (by omega)

theorem sim_type2 (x : ParseExt) : Sim Outside Outside r r' loc true (type2 x R) := by
  refine .alt (.pmap _ (sim_value g.left g.right x).weak) (.alt (.pmap _ (sim_nameGeneric g h))
    (.alt (.pmap _ (sim_brackets g (by decide) (by decide) (sim_ty g h)))
    (.alt (.pmap _ (sim_brackets g (by decide) (by decide) h.group)) (.alt (.pmap _ (sim_brackets g (by decide) (by decide) h.group))
    (.alt (.pmap _ ((sim_lit' g (by decide)).preceded (g.ws.preceded (sim_nameGeneric g h))))
    (.alt (.pmap _ ((sim_lit' g (by decide)).preceded (g.ws.preceded
      (sim_brackets g (by decide) (by decide) h.group))))
      (.pmap _ ((sim_lit' g (by decide)).preceded (g.ws.preceded (sim_nameGeneric g h))))))))))

end

theorem sim_parsers {r r' : List Char} {loc : Bool} (g : Gap loc r r') (x : ParseExt) : ∀ k, (parsers x k).Sim r r' loc
  | 0 => ⟨fun _ _ => .oofL _, fun _ _ => .oofL _⟩
  | k + 1 => ⟨sim_type2 g (sim_parsers g x k) x, sim_group g (sim_parsers g x k) (takes_parsers x k)⟩

/-- The recursive parsers with the budget of the code's texts. -/
theorem sim_parserRec {r r' : List Char} {loc : Bool} (g : Gap loc r r') (x : ParseExt) : (parserRec x).Sim r r' loc := by
  constructor
  · intro t ht
    have := (sim_parsers g x (2 * (t ++ r).length + 2 * (t ++ r').length + 2)).type2 t ht
    rwa [(parsers_enough (by omega)).1, (parsers_enough (by omega)).1] at this
  · intro t ht
    have := (sim_parsers g x (2 * (t ++ r).length + 2 * (t ++ r').length + 2)).group t ht
    rwa [(parsers_enough (by omega)).2, (parsers_enough (by omega)).2] at this

theorem takes_parserRec (x : ParseExt) : (parserRec x).Takes :=
  ⟨fun i k a e => (takes_parsers x (2 * i.length + 2)).type2 i k a (by rw [← parserRec_type2]; exact e),
    fun i k a e => (takes_parsers x (2 * i.length + 2)).group i k a (by rw [← parserRec_group]; exact e)⟩

theorem sim_rule {r r' : List Char} {loc : Bool} (g : Gap loc r r') (x : ParseExt) : Sim Outside Outside r r' loc true (rule x) := by
  have hR := sim_parserRec g x
  have hT := takes_parserRec x
  refine .pmap _ (.pair (.pair (sim_ident' g) (.opt (.delimited ?_ (.sepList1 ?_ (sim_comma g) fun _ => takes_comma)
    (sim_lit' g (by decide))))) (g.ws.preceded ((sim_lit' g (by decide)).preceded (g.ws.preceded
    (.alt (.pmap _ (sim_ty g hR)) (.pmap _ (sim_grpent g hR hT)))))))
  · exact (sim_lit' g (by decide)).pair g.ws
  · exact (sim_ident' g).terminated g.ws

theorem takes_rule (x : ParseExt) : Takes 1 (rule x) := takes_of_parses readsRel (fun _ => sound_rule) fun _ _ h => h.ne

theorem sim_cddl {r r' : List Char} {loc : Bool} (g : Gap loc r r') (x : ParseExt) : Sim Outside Outside r r' loc true (cddl x) :=
  g.ws.preceded (((sim_rule g x).terminated g.ws).many1 fun _ => (takes_rule x).terminated (m := 0) takes_ws)

/-! ## Whole texts -/

theorem WsTo.unique {i u v : List Char} (h : WsTo i u) (h' : WsTo i v) : u = v := by
  obtain ⟨a, e⟩ := h.ws
  obtain ⟨b, e'⟩ := h'.ws
  rw [e] at e'
  cases e'
  rfl

theorem ws_stable {i k a : List Char} (h : ws i = .ok k a) : WsTo k k := by
  obtain ⟨u, hu⟩ := wsTo_total i
  obtain ⟨b, e⟩ := hu.ws
  rw [h] at e
  cases e
  obtain ⟨as, hm⟩ := hu
  have key : ∀ {i as u}, Many (alt multispace1 comment) i as u → WsTo u u := by
    intro i as u hm
    induction hm with
    | stop h => exact ⟨[], .stop h⟩
    | step _ _ _ ih => exact ih
  exact key hm

theorem many0_ws_stable {α : Type} {p : P α} : ∀ (m : Nat) (i k : List Char) (as : List α), WsTo i i →
    many0Loop (terminated p ws) m i = .ok k as → WsTo k k
  | 0, _, _, _, _, e => by cases e
  | m + 1, i, k, as, hi, e => by
    simp only [many0Loop] at e
    cases hp : terminated p ws i with
    | ok s a =>
      rw [hp] at e
      dsimp only at e
      split at e
      · cases e
      · cases hm : many0Loop (terminated p ws) m s with
        | ok s' bs =>
          rw [hm] at e
          cases e
          refine many0_ws_stable m s _ _ ?_ hm
          simp only [terminated] at hp
          cases hq : p i with
          | ok s0 c =>
            rw [hq] at hp
            simp only [PR.bind] at hp
            cases hw : ws s0 with
            | ok s1 d =>
              rw [hw] at hp
              cases hp
              exact ws_stable hw
            | _ => rw [hw] at hp; cases hp
          | _ => rw [hq] at hp; cases hp
        | _ => rw [hm] at e; cases e
    | err _ =>
      rw [hp] at e
      cases e
      exact hi
    | _ => rw [hp] at e; cases e

/-- What is left behind the rules does not begin with white space. -/
theorem cddl_stable {x : ParseExt} {i k : List Char} {c : Ast.Cddl} (h : cddl x i = .ok k c) : WsTo k k := by
  simp only [cddl, preceded] at h
  cases hw : ws i with
  | ok s a =>
    rw [hw] at h
    simp only [PR.bind, many1] at h
    cases hr : terminated (rule x) ws s with
    | ok s1 b =>
      rw [hr] at h
      simp only [PR.bind] at h
      cases hm : many0 (terminated (rule x) ws) s1 with
      | ok s2 bs =>
        rw [hm] at h
        cases h
        refine many0_ws_stable _ s1 _ _ ?_ hm
        simp only [terminated] at hr
        cases hq : rule x s with
        | ok s0 c =>
          rw [hq] at hr
          simp only [PR.bind] at hr
          cases hw : ws s0 with
          | ok s1 d =>
            rw [hw] at hr
            cases hr
            exact ws_stable hw
          | _ => rw [hw] at hr; cases hr
        | _ => rw [hq] at hr; cases hr
      | _ => rw [hm] at h; cases h
    | _ => rw [hr] at h; cases h
  | _ => rw [hw] at h; cases h

theorem parseCddl_ok_iff {x : ParseExt} {i : List Char} {c : Ast.Cddl} :
    parseCddl x (String.ofList i) = .ok c ↔ cddl x i = .ok [] c := by
  simp only [parseCddl, allConsuming, String.toList_ofList]
  cases h : cddl x i with
  | ok k d =>
    simp only [PR.bind]
    by_cases hk : k.length = 0
    · have : k = [] := List.length_eq_zero_iff.1 hk
      subst this
      simp [PR.toRes]
    · rw [if_neg hk]
      have : k ≠ [] := fun e => hk (by simp [e])
      simp [PR.toRes, this]
  | _ => simp [PR.toRes]

theorem cddl_not_oof {x : ParseExt} (i : List Char) : cddl x i ≠ .oof := by
  have := sound_cddl (x := x) (n := i.length) i (Nat.le_refl _)
  exact good_ne_oof this

theorem parse_gap {r r' : List Char} (g : Gaps r r') (x : ParseExt) {a : List Char} (ha : Outside a) (c : Ast.Cddl)
    (h : parseCddl x (String.ofList (a ++ r)) = .ok c) : parseCddl x (String.ofList (a ++ r')) = .ok c := by
  rw [parseCddl_ok_iff] at h ⊢
  have hs := sim_cddl g.gap x a ha
  rw [h] at hs
  generalize hy : cddl x (a ++ r') = y at hs
  generalize hk : ([] : List Char) = k at hs
  cases hs with
  | near t _ e =>
    have ht := List.append_eq_nil_iff.1 hk.symm
    obtain ⟨rfl, rfl⟩ := ht
    have h1 := cddl_stable h
    have h2 := cddl_stable hy
    obtain ⟨u, hu, hu'⟩ := g.trim
    rw [List.nil_append] at h2
    rw [hu'.unique h2] at hu
    rw [h1.unique hu, e rfl]
  | far _ _ e => rw [← hk, e rfl]
  | oofR => exact absurd hy (cddl_not_oof _)

/-- A text is not read beyond a place where a comment begins that has no proper end. -/
theorem cddl_stuck {x : ParseExt} {a r k : List Char} {c : Ast.Cddl} (ha : Outside a) (hr : Apart r) (h : WsTo r r)
    (hc : cddl x (a ++ r) = .ok k c) : ∃ t, k = t ++ r := by
  have hs := sim_cddl (gap_stuck hr h) x a ha
  rw [hc] at hs
  cases hs with
  | near t _ _ => exact ⟨t, rfl⟩
  | far _ e => cases e

end Cddl
