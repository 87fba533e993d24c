import Verif.Model.Calls
import Verif.Proofs.ParseRunAll

/-!
# The counting parsers
-/

namespace Cddl

open Ast (Ty Ty1 Ty2 MemberKeyVal GrpEntVal GrpEnt Group GrpChoice RuleVal)

variable {α β γ : Type} {x : ParseExt}

/-! ## The results are those of the parsers -/

/-- Without the count, `pc` is `p`. -/
def Uncounted (pc : PC α) (p : P α) : Prop := ∀ i, (pc i).1 = p i

theorem bindC_fst (y : PR α × Nat) (f : List Char → α → PR β × Nat) :
    (bindC y f).1 = y.1.bind fun r a => (f r a).1 := by
  unfold bindC; split <;> simp_all

theorem same_free (p : P α) : Uncounted (free p) p := fun _ => rfl

theorem same_pmap {p : PC α} {q : P α} (f : α → β) (h : Uncounted p q) : Uncounted (pmapC f p) (pmap f q) := fun i => by
  simp only [pmapC, pmap, bindC_fst, h i]

theorem same_pair {p : PC α} {q : P α} {p' : PC β} {q' : P β} (h : Uncounted p q) (h' : Uncounted p' q') :
    Uncounted (pairC p p') (pair q q') := fun i => by
  have h' : (fun i => (p' i).1) = q' := funext h'
  simp only [pairC, pair, bindC_fst, h i, ← h']

theorem same_preceded {p : PC α} {q : P α} {p' : PC β} {q' : P β} (h : Uncounted p q) (h' : Uncounted p' q') :
    Uncounted (precededC p p') (preceded q q') := fun i => by
  have h' : (fun i => (p' i).1) = q' := funext h'
  simp only [precededC, preceded, bindC_fst, h i, ← h']

theorem same_terminated {p : PC α} {q : P α} {p' : PC β} {q' : P β} (h : Uncounted p q) (h' : Uncounted p' q') :
    Uncounted (terminatedC p p') (terminated q q') := fun i => by
  have h' : (fun i => (p' i).1) = q' := funext h'
  simp only [terminatedC, terminated, bindC_fst, h i, ← h']

theorem same_delimited {p : PC α} {q : P α} {p' : PC β} {q' : P β} {p'' : PC γ} {q'' : P γ} (h : Uncounted p q)
    (h' : Uncounted p' q') (h'' : Uncounted p'' q'') : Uncounted (delimitedC p p' p'') (delimited q q' q'') :=
  same_preceded h (same_terminated h' h'')

theorem same_opt {p : PC α} {q : P α} (h : Uncounted p q) : Uncounted (optC p) (opt q) := fun i => by
  simp only [optC, opt, ← h i]; cases (p i).1 <;> rfl

theorem same_alt {p p' : PC α} {q q' : P α} (h : Uncounted p q) (h' : Uncounted p' q') : Uncounted (altC p p') (alt q q') := fun i => by
  simp only [altC, alt, ← h i, ← h' i]; cases (p i).1 <;> rfl

theorem same_many0Loop {p : PC α} {q : P α} (h : Uncounted p q) : ∀ k, Uncounted (many0LoopC p k) (many0Loop q k) := by
  intro k
  induction k with
  | zero => exact fun _ => rfl
  | succ k ih =>
    intro i
    simp only [many0LoopC, many0Loop, ← h i]
    cases (p i).1 <;> try rfl
    simp only
    split
    · rfl
    · simp only [bindC_fst, ih _]

theorem same_many0 {p : PC α} {q : P α} (h : Uncounted p q) : Uncounted (many0C p) (many0 q) := fun i => same_many0Loop h _ i

theorem same_many1 {p : PC α} {q : P α} (h : Uncounted p q) : Uncounted (many1C p) (many1 q) := fun i => by
  have h' : (fun i => (many0C p i).1) = many0 q := funext (same_many0 h)
  simp only [many1C, many1, bindC_fst, h i, ← h']

theorem same_sepLoop {s : PC β} {s' : P β} {p : PC α} {q : P α} (hs : Uncounted s s') (h : Uncounted p q) :
    ∀ k, Uncounted (sepLoopC s p k) (sepLoop s' q k) := by
  intro k
  induction k with
  | zero => exact fun _ => rfl
  | succ k ih =>
    intro i
    simp only [sepLoopC, sepLoop, ← hs i]
    cases (s i).1 <;> try rfl
    rename_i r _
    simp only [← h r]
    split
    · rfl
    · cases (p r).1 <;> try rfl
      simp only [bindC_fst, ih _]

theorem same_sepList1 {s : PC β} {s' : P β} {p : PC α} {q : P α} (hs : Uncounted s s') (h : Uncounted p q) :
    Uncounted (sepList1C s p) (sepList1 s' q) := fun i => by
  simp only [sepList1C, sepList1, bindC_fst, h i, same_sepLoop hs h _ _]

theorem same_allConsuming {p : PC α} {q : P α} (h : Uncounted p q) : Uncounted (allConsumingC p) (allConsuming q) := fun i => by
  simp only [allConsumingC, allConsuming, bindC_fst, h i]
  cases q i <;> try rfl
  simp only [PR.bind]
  split <;> rfl

/-- The same for the recursive calls. -/
structure SameRec (rc : PCRec) (r : PRec) : Prop where
  type2 : Uncounted rc.type2 r.type2
  group : Uncounted rc.group r.group

variable {rc : PCRec} {r : PRec}

theorem same_type1 (h : SameRec rc r) : Uncounted (type1C rc) (type1 r) :=
  same_pmap _ (same_pair h.type2 (same_opt (same_preceded (same_free _) (same_pair (same_free _)
    (same_preceded (same_free _) h.type2)))))

theorem same_ty (h : SameRec rc r) : Uncounted (tyC rc) (ty r) := same_sepList1 (same_free _) (same_type1 h)

theorem same_nameGeneric (h : SameRec rc r) : Uncounted (nameGenericC rc) (nameGenericP r) :=
  same_pmap _ (same_pair (same_free _) (same_opt (same_delimited (same_free _) (same_sepList1 (same_free _)
    (same_terminated (same_type1 h) (same_free _))) (same_free _))))

theorem ifOkC_fst (y : PR α × Nat) (f : List Char → α → PR β) (g : PR β × Nat) : (ifOkC y f g).1 = ifOk y.1 f g.1 := by
  unfold ifOkC; split <;> simp_all [ifOk]

theorem same_memberkeyTail (h : SameRec rc r) : Uncounted (memberkeyTailC rc) (memberkeyTail r) :=
  same_preceded (same_free _) (same_ty h)

theorem same_arrowTail (h : SameRec rc r) : Uncounted (arrowTailC rc) (arrowTail r) :=
  same_pair (same_free _) (same_preceded (same_free _) (same_preceded (same_free _) (same_ty h)))

theorem same_memberRest (h : SameRec rc r) (t : Ty1) : Uncounted (memberRestC rc t) (memberRest r t) := fun i => by
  simp only [memberRestC, memberRest, ifOkC_fst, same_arrowTail h i,
    same_many0 (same_preceded (same_free slash) (same_type1 h)) i]

theorem same_grpentMember (h : SameRec rc r) : Uncounted (grpentMemberC rc) (grpentMember r) := fun i => by
  simp only [grpentMemberC, grpentMember, bindC_fst, same_terminated (same_type1 h) (same_free ws) i]
  congr 1
  funext i' t
  split <;> simp only [ifOkC_fst, same_memberkeyTail h i', same_memberRest h _ i']

theorem same_inParens (h : SameRec rc r) : Uncounted (inParensC rc) (inParens r) :=
  same_delimited (same_free _) (same_delimited (same_free _) h.group (same_free _)) (same_free _)

theorem same_grpent (h : SameRec rc r) : Uncounted (grpentC rc) (grpent r) :=
  same_pmap _ (same_pair (same_free _) (same_alt (same_grpentMember h) (same_alt (same_free _)
    (same_pmap _ (same_inParens h)))))

theorem same_grpchoice (h : SameRec rc r) : Uncounted (grpchoiceC rc) (grpchoice r) :=
  same_many0 (same_terminated (same_grpent h) (same_free _))

theorem same_group (h : SameRec rc r) : Uncounted (groupC rc) (group r) :=
  same_pmap _ (same_pair (same_grpchoice h) (same_many0 (same_preceded (same_free _) (same_grpchoice h))))

theorem same_type2 (h : SameRec rc r) : Uncounted (type2C x rc) (type2 x r) :=
  same_alt (same_free _) <| same_alt (same_pmap _ (same_nameGeneric h)) <|
  same_alt (same_pmap _ (same_delimited (same_free _) (same_delimited (same_free _) (same_ty h) (same_free _)) (same_free _))) <|
  same_alt (same_pmap _ (same_delimited (same_free _) (same_delimited (same_free _) h.group (same_free _)) (same_free _))) <|
  same_alt (same_pmap _ (same_delimited (same_free _) (same_delimited (same_free _) h.group (same_free _)) (same_free _))) <|
  same_alt (same_pmap _ (same_preceded (same_free _) (same_preceded (same_free _) (same_nameGeneric h)))) <|
  same_alt (same_pmap _ (same_preceded (same_free _) (same_preceded (same_free _) (same_inParens h))))
    (same_pmap _ (same_preceded (same_free _) (same_preceded (same_free _) (same_nameGeneric h))))

theorem same_parsers : ∀ n, SameRec (parsersC x n) (parsers x n) := by
  intro n
  induction n with
  | zero => exact ⟨fun _ => rfl, fun _ => rfl⟩
  | succ n ih => exact ⟨same_type2 ih, same_group ih⟩

theorem parserRecC_type2 (i : List Char) : (parserRecC x).type2 i = (parsersC x (2 * i.length + 2)).type2 i := by
  generalize hk : 2 * i.length + 2 = k
  rw [← hk, parserRecC]

theorem parserRecC_group (i : List Char) : (parserRecC x).group i = (parsersC x (2 * i.length + 2)).group i := by
  generalize hk : 2 * i.length + 2 = k
  rw [← hk, parserRecC]

theorem same_parserRec : SameRec (parserRecC x) (parserRec x) := by
  constructor
  · intro i
    rw [parserRecC_type2, parserRec_type2]
    exact (same_parsers _).1 i
  · intro i
    rw [parserRecC_group, parserRec_group]
    exact (same_parsers _).2 i

theorem same_rule : Uncounted (ruleC x) (rule x) :=
  same_pmap _ (same_pair (same_free _) (same_preceded (same_free _) (same_preceded (same_free _) (same_preceded (same_free _)
    (same_alt (same_pmap _ (same_ty same_parserRec)) (same_pmap _ (same_grpent same_parserRec)))))))

theorem same_cddl : Uncounted (cddlC x) (cddl x) := same_preceded (same_free _) (same_many1 (same_terminated same_rule (same_free _)))

/-- The counting parser gives the same results. -/
theorem parseCddlC_fst (s : String) : (parseCddlC x s).1 = parseCddl x s := by
  simp only [parseCddlC, parseCddl, same_allConsuming same_cddl _]

/-! ## Counting -/

theorem bindC_ok {y : PR α × Nat} {f : List Char → α → PR β × Nat} {r a} (h : y.1 = .ok r a) :
    (bindC y f).2 = y.2 + (f r a).2 := by
  unfold bindC; rw [h]

theorem bindC_le (y : PR α × Nat) (f : List Char → α → PR β × Nat) : y.2 ≤ (bindC y f).2 := by
  unfold bindC; split <;> simp

theorem pmapC_snd (f : α → β) (p : PC α) (i : List Char) : (pmapC f p i).2 = (p i).2 := by
  unfold pmapC bindC; split <;> rfl

theorem pairC_le (p : PC α) (q : PC β) (i : List Char) : (p i).2 ≤ (pairC p q i).2 := bindC_le _ _

theorem terminatedC_le (p : PC α) (q : PC β) (i : List Char) : (p i).2 ≤ (terminatedC p q i).2 := bindC_le _ _

theorem pairC_ok {p : PC α} (q : PC β) {i r : List Char} {a} (h : (p i).1 = .ok r a) : (q r).2 ≤ (pairC p q i).2 := by
  unfold pairC
  rw [bindC_ok h]
  exact Nat.le_trans (bindC_le _ _) (Nat.le_add_left _ _)

theorem precededC_ok {p : PC α} (q : PC β) {i r : List Char} {a} (h : (p i).1 = .ok r a) :
    (q r).2 ≤ (precededC p q i).2 := by
  unfold precededC
  rw [bindC_ok h]
  exact Nat.le_add_left _ _

theorem delimitedC_ok {p : PC α} (q : PC β) (s : PC γ) {i r : List Char} {a} (h : (p i).1 = .ok r a) :
    (q r).2 ≤ (delimitedC p q s i).2 := Nat.le_trans (terminatedC_le q s r) (precededC_ok _ h)

theorem altC_le (p q : PC α) (i : List Char) : (p i).2 ≤ (altC p q i).2 := by
  unfold altC; split <;> simp

theorem altC_err {p : PC α} (q : PC α) {i : List Char} {e} (h : (p i).1 = .err e) :
    (altC p q i).2 = (p i).2 + (q i).2 := by unfold altC; rw [h]

theorem many0C_le (p : PC α) (i : List Char) : (p i).2 ≤ (many0C p i).2 := by
  unfold many0C many0LoopC
  split
  · split
    · simp
    · exact Nat.le_add_right _ _
  all_goals simp

theorem type1C_le (rc : PCRec) (i : List Char) : (rc.type2 i).2 ≤ (type1C rc i).2 := by
  unfold type1C; rw [pmapC_snd]; exact pairC_le _ _ _

theorem tyC_le (rc : PCRec) (i : List Char) : (rc.type2 i).2 ≤ (tyC rc i).2 :=
  Nat.le_trans (type1C_le rc i) (bindC_le _ _)

theorem grpentMemberC_le (rc : PCRec) (i : List Char) : (rc.type2 i).2 ≤ (grpentMemberC rc i).2 :=
  Nat.le_trans (Nat.le_trans (type1C_le rc i) (terminatedC_le _ _ _)) (bindC_le _ _)

/-- The first entry of a group. -/
theorem groupC_le (rc : PCRec) (i : List Char) : (grpentC rc i).2 ≤ (groupC rc i).2 := by
  unfold groupC
  rw [pmapC_snd]
  exact Nat.le_trans (Nat.le_trans (terminatedC_le (grpentC rc) (free optcom) i) (many0C_le _ i)) (pairC_le _ _ _)

/-- An entry without an occurrence. -/
theorem grpentC_le (rc : PCRec) {i : List Char} (h : NoOccur i) : (grpentValC rc i).2 ≤ (grpentC rc i).2 := by
  unfold grpentC
  rw [pmapC_snd]
  exact pairC_ok _ (occur_none h)

theorem grpentC_type2 (rc : PCRec) {i : List Char} (h : NoOccur i) : (rc.type2 i).2 ≤ (grpentC rc i).2 :=
  Nat.le_trans (Nat.le_trans (grpentMemberC_le rc i) (altC_le _ _ _)) (grpentC_le rc h)

theorem free_ws {i : List Char} : ∃ t, (free ws i).1 = .ok (trim i) t := ws_trim i

/-- What is tried before the brackets. -/
theorem type2C_open (h : SameRec rc r) {c : Char} (hc : c ∈ "({[~&".toList) (i : List Char) (q : PC Ty2) :
    (q (c :: i)).2 ≤ (altC (free (pmap .value (value x))) (altC (pmapC (fun p => .typename p.1 p.2) (nameGenericC rc)) q) (c :: i)).2 := by
  obtain ⟨⟨e1, h1⟩, e2, h2⟩ := open_err x r hc i
  have h3 : (free (pmap Ty2.value (value x)) (c :: i)).1 = .err e1 := by simp only [free, pmap, h1, PR.bind]
  have h4 : (pmapC (fun p => Ty2.typename p.1 p.2) (nameGenericC rc) (c :: i)).1 = .err e2 := by
    rw [same_pmap _ (same_nameGeneric h)]
    simp only [pmap, h2, PR.bind]
  rw [altC_err _ h3, altC_err _ h4]
  omega

/-- An opening parenthesis: a type is tried. -/
theorem type2C_parens (h : SameRec rc r) (i : List Char) : (tyC rc (trim i)).2 + 1 ≤ (type2C x rc ('(' :: i)).2 := by
  refine Nat.succ_le_succ (Nat.le_trans ?_ (type2C_open (x := x) h (by decide) i _))
  obtain ⟨t, ht⟩ := free_ws (i := i)
  have h1 : (free (chr '(') ('(' :: i)).1 = .ok i '(' := chr_ok '(' i
  have h2 := Nat.le_trans (delimitedC_ok (tyC rc) (free ws) ht) (delimitedC_ok _ (free (chr ')')) h1)
  exact Nat.le_trans (by rw [pmapC_snd]; exact h2) (altC_le _ _ _)

/-- An opening bracket: a group is tried. -/
theorem type2C_array (h : SameRec rc r) (i : List Char) : (rc.group (trim i)).2 + 1 ≤ (type2C x rc ('[' :: i)).2 := by
  refine Nat.succ_le_succ (Nat.le_trans ?_ (type2C_open (x := x) h (by decide) i _))
  obtain ⟨t, ht⟩ := free_ws (i := i)
  have h1 : (free (chr '[') ('[' :: i)).1 = .ok i '[' := chr_ok '[' i
  have h2 := Nat.le_trans (delimitedC_ok rc.group (free ws) ht) (delimitedC_ok _ (free (chr ']')) h1)
  obtain ⟨e3, h3⟩ := chr_err (c := '(') (i := '[' :: i) (notHead_cons (by decide) _)
  obtain ⟨e4, h4⟩ := chr_err (c := '{') (i := '[' :: i) (notHead_cons (by decide) _)
  have h3 : (pmapC Ty2.parens (type2ParensC rc) ('[' :: i)).1 = .err e3 := by
    simp only [pmapC, type2ParensC, delimitedC, precededC, free, bindC_fst, h3, PR.bind]
  have h4 : (pmapC Ty2.map (type2MapC rc) ('[' :: i)).1 = .err e4 := by
    simp only [pmapC, type2MapC, delimitedC, precededC, free, bindC_fst, h4, PR.bind]
  rw [altC_err _ h3, altC_err _ h4]
  refine Nat.le_trans (Nat.le_trans ?_ (altC_le _ _ _)) (Nat.le_trans (Nat.le_add_left _ _) (Nat.le_add_left _ _))
  rw [pmapC_snd]
  exact h2

/-- Parentheses that are not a type are read twice: as a type and as a group. -/
theorem grpentC_twice (h : SameRec rc r) {i : List Char} {e} (he : r.type2 ('(' :: i) = .err e) :
    (rc.type2 ('(' :: i)).2 + (rc.group (trim i)).2 ≤ (grpentC rc ('(' :: i)).2 := by
  refine Nat.le_trans ?_ (grpentC_le rc (.inl (notHead_cons (by unfold Digit; decide) _)))
  have h1 : (grpentMemberC rc ('(' :: i)).1 = .err e := by rw [same_grpentMember h]; exact grpentMember_err he
  obtain ⟨e2, h2⟩ := ident_err (i := '(' :: i) (notHead_cons (by unfold EAlpha; decide) _)
  have h2 : (free (pmap (fun s => GrpEntVal.groupname (String.ofList s)) ident) ('(' :: i)).1 = .err e2 := by
    simp only [free, pmap, h2, PR.bind]
  unfold grpentValC
  rw [altC_err _ h1, altC_err _ h2, pmapC_snd]
  obtain ⟨t, ht⟩ := free_ws (i := i)
  have h3 : (free (chr '(') ('(' :: i)).1 = .ok i '(' := chr_ok '(' i
  have h4 : (rc.group (trim i)).2 ≤ (inParensC rc ('(' :: i)).2 :=
    Nat.le_trans (delimitedC_ok rc.group (free ws) ht) (delimitedC_ok _ (free (chr ')')) h3)
  have := grpentMemberC_le rc ('(' :: i)
  omega

end Cddl
