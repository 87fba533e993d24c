import Verif.Spec.CountedParse
import Verif.Proofs.Calls

/-! # The parser: all calls that matter are counted, and only calls that are made -/

namespace Cddl

open Ast (Ty Ty1 Ty2 MemberKeyVal GrpEntVal GrpEnt Group GrpChoice RuleVal)

variable {α β γ : Type} {x : ParseExt}

/-! ## All calls that matter -/

/-- What costs nothing is as with `q`. -/
def Watch (p : PC α) (q : P α) : Prop := ∀ i, (p i).2 = 0 → (p i).1 = q i

theorem watch_bind {y : PR α × Nat} {z : PR α} {f : List Char → α → PR β × Nat} {g : List Char → α → PR β}
    (hy : y.2 = 0 → y.1 = z) (hf : ∀ r a, (f r a).2 = 0 → (f r a).1 = g r a) (h : (bindC y f).2 = 0) :
    (bindC y f).1 = z.bind g := by
  have h0 : y.2 = 0 := Nat.le_zero.mp (h ▸ bindC_le y f)
  rw [← hy h0, bindC_fst]
  cases hy1 : y.1 with
  | ok r a => rw [bindC_ok hy1] at h; exact hf r a (by omega)
  | _ => rfl

theorem watch_free (p : P α) : Watch (free p) p := fun _ _ => rfl

theorem watch_pmap {p : PC α} {q : P α} (f : α → β) (h : Watch p q) : Watch (pmapC f p) (pmap f q) :=
  fun i => watch_bind (h i) fun _ _ _ => rfl

theorem watch_pair {p : PC α} {q : P α} {p' : PC β} {q' : P β} (h : Watch p q) (h' : Watch p' q') :
    Watch (pairC p p') (pair q q') :=
  fun i => watch_bind (h i) fun r _ => watch_bind (h' r) fun _ _ _ => rfl

theorem watch_preceded {p : PC α} {q : P α} {p' : PC β} {q' : P β} (h : Watch p q) (h' : Watch p' q') :
    Watch (precededC p p') (preceded q q') :=
  fun i => watch_bind (h i) fun r _ => h' r

theorem watch_terminated {p : PC α} {q : P α} {p' : PC β} {q' : P β} (h : Watch p q) (h' : Watch p' q') :
    Watch (terminatedC p p') (terminated q q') :=
  fun i => watch_bind (h i) fun r _ => watch_bind (h' r) fun _ _ _ => rfl

theorem watch_delimited {p : PC α} {q : P α} {p' : PC β} {q' : P β} {p'' : PC γ} {q'' : P γ} (h : Watch p q)
    (h' : Watch p' q') (h'' : Watch p'' q'') : Watch (delimitedC p p' p'') (delimited q q' q'') :=
  watch_preceded h (watch_terminated h' h'')

theorem watch_opt {p : PC α} {q : P α} (h : Watch p q) : Watch (optC p) (opt q) := fun i => by
  intro h0
  have : (p i).2 = 0 := by
    revert h0
    unfold optC
    cases (p i).1 <;> exact id
  simp only [optC, opt, ← h i this]
  cases (p i).1 <;> rfl

theorem watch_alt {p p' : PC α} {q q' : P α} (h : Watch p q) (h' : Watch p' q') : Watch (altC p p') (alt q q') := fun i => by
  intro h0
  have h1 : (p i).2 = 0 := by
    revert h0
    unfold altC
    cases (p i).1 <;> dsimp only <;> omega
  simp only [alt, ← h i h1]
  unfold altC at h0 ⊢
  cases hp : (p i).1 with
  | err e => rw [hp] at h0; exact h' i (by dsimp only at h0; omega)
  | _ => rfl

theorem watch_many0Loop {p : PC α} {q : P α} (h : Watch p q) : ∀ k, Watch (many0LoopC p k) (many0Loop q k) := by
  intro k
  induction k with
  | zero => exact fun _ _ => rfl
  | succ k ih =>
    intro i h0
    have h1 : (p i).2 = 0 := by
      revert h0
      unfold many0LoopC
      cases (p i).1 <;> dsimp only <;> try omega
      split <;> dsimp only <;> omega
    simp only [many0LoopC, many0Loop, ← h i h1] at h0 ⊢
    cases hp : (p i).1 <;> try rfl
    rw [hp] at h0
    simp only at h0 ⊢
    split
    · rfl
    · rw [if_neg ‹_›] at h0
      exact watch_bind (ih _) (fun _ _ _ => rfl) (by dsimp only at h0; omega)

theorem watch_many0 {p : PC α} {q : P α} (h : Watch p q) : Watch (many0C p) (many0 q) := fun i => watch_many0Loop h _ i

theorem watch_sepLoop {s : P β} {p : PC α} {q : P α} (h : Watch p q) :
    ∀ k, Watch (sepLoopC (free s) p k) (sepLoop s q k) := by
  intro k
  induction k with
  | zero => exact fun _ _ => rfl
  | succ k ih =>
    intro i h0
    simp only [sepLoopC, sepLoop, free] at h0 ⊢
    cases hs : s i <;> try rfl
    rename_i r _
    rw [hs] at h0
    simp only at h0 ⊢
    split
    · rfl
    · rw [if_neg ‹_›] at h0
      have h1 : (p r).2 = 0 := by
        revert h0
        cases (p r).1 <;> dsimp only <;> omega
      rw [← h r h1]
      cases hp : (p r).1 <;> try rfl
      rw [hp] at h0
      exact watch_bind (ih _) (fun _ _ _ => rfl) (by dsimp only [free] at h0 ⊢; omega)

theorem watch_sepList1 {s : P β} {p : PC α} {q : P α} (h : Watch p q) :
    Watch (sepList1C (free s) p) (sepList1 s q) :=
  fun i => watch_bind (h i) fun r _ => watch_bind (watch_sepLoop h _ r) fun _ _ _ => rfl

theorem watch_ifOk {y : PR α × Nat} {z : PR α} (f : List Char → α → PR β) {g : PR β × Nat} {g' : PR β}
    (hy : y.2 = 0 → y.1 = z) (hg : g.2 = 0 → g.1 = g') (h : (ifOkC y f g).2 = 0) : (ifOkC y f g).1 = ifOk z f g' := by
  have h0 : y.2 = 0 := by
    revert h
    unfold ifOkC
    cases y.1 <;> dsimp only <;> omega
  rw [← hy h0]
  unfold ifOkC at h ⊢
  unfold ifOk
  cases hy1 : y.1 <;> rw [hy1] at h <;> try rfl
  all_goals exact hg (by dsimp only at h; omega)

/-- The same for the recursive calls. -/
structure WatchRec (rc : PCRec) (r : PRec) : Prop where
  type2 : Watch rc.type2 r.type2
  group : Watch rc.group r.group

variable {rc : PCRec} {r : PRec}

theorem watch_type1 (h : WatchRec rc r) : Watch (type1C rc) (type1 r) :=
  watch_pmap _ (watch_pair h.type2 (watch_opt (watch_preceded (watch_free _) (watch_pair (watch_free _)
    (watch_preceded (watch_free _) h.type2)))))

theorem watch_ty (h : WatchRec rc r) : Watch (tyC rc) (ty r) := watch_sepList1 (watch_type1 h)

theorem watch_nameGeneric (h : WatchRec rc r) : Watch (nameGenericC rc) (nameGenericP r) :=
  watch_pmap _ (watch_pair (watch_free _) (watch_opt (watch_delimited (watch_free _) (watch_sepList1
    (watch_terminated (watch_type1 h) (watch_free _))) (watch_free _))))

theorem watch_memberRest (h : WatchRec rc r) (t : Ty1) : Watch (memberRestC rc t) (memberRest r t) := fun i =>
  watch_ifOk _ (watch_pair (watch_free _) (watch_preceded (watch_free _) (watch_preceded (watch_free _) (watch_ty h))) i)
    (watch_ifOk _ (watch_many0 (watch_preceded (watch_free slash) (watch_type1 h)) i) fun _ => rfl)

theorem watch_grpentMember (h : WatchRec rc r) : Watch (grpentMemberC rc) (grpentMember r) := fun i =>
  watch_bind (watch_terminated (watch_type1 h) (watch_free ws) i) fun i' t => by
    split
    · exact watch_ifOk _ (watch_preceded (watch_free _) (watch_ty h) i') (watch_memberRest h _ i')
    · exact watch_ifOk _ (watch_preceded (watch_free _) (watch_ty h) i') (watch_memberRest h _ i')
    · intro h0
      rw [watch_memberRest h _ i' h0]
      split
      · rename_i h1 _; exact absurd rfl (h1 _)
      · rename_i h1; exact absurd rfl (h1 _ _)
      · rfl

theorem watch_inParens (h : WatchRec rc r) : Watch (inParensC rc) (inParens r) :=
  watch_delimited (watch_free _) (watch_delimited (watch_free _) h.group (watch_free _)) (watch_free _)

theorem watch_grpent (h : WatchRec rc r) : Watch (grpentC rc) (grpent r) :=
  watch_pmap _ (watch_pair (watch_free _) (watch_alt (watch_grpentMember h) (watch_alt (watch_free _)
    (watch_pmap _ (watch_inParens h)))))

theorem watch_grpchoice (h : WatchRec rc r) : Watch (grpchoiceC rc) (grpchoice r) :=
  watch_many0 (watch_terminated (watch_grpent h) (watch_free _))

theorem watch_group (h : WatchRec rc r) : Watch (groupC rc) (group r) :=
  watch_pmap _ (watch_pair (watch_grpchoice h) (watch_many0 (watch_preceded (watch_free _) (watch_grpchoice h))))

theorem watch_type2 (h : WatchRec rc r) : Watch (type2AltsC x rc) (type2 x r) :=
  watch_alt (watch_free _) <| watch_alt (watch_pmap _ (watch_nameGeneric h)) <|
  watch_alt (watch_pmap _ (watch_delimited (watch_free _) (watch_delimited (watch_free _) (watch_ty h) (watch_free _)) (watch_free _))) <|
  watch_alt (watch_pmap _ (watch_delimited (watch_free _) (watch_delimited (watch_free _) h.group (watch_free _)) (watch_free _))) <|
  watch_alt (watch_pmap _ (watch_delimited (watch_free _) (watch_delimited (watch_free _) h.group (watch_free _)) (watch_free _))) <|
  watch_alt (watch_pmap _ (watch_preceded (watch_free _) (watch_preceded (watch_free _) (watch_nameGeneric h)))) <|
  watch_alt (watch_pmap _ (watch_preceded (watch_free _) (watch_preceded (watch_free _) (watch_inParens h))))
    (watch_pmap _ (watch_preceded (watch_free _) (watch_preceded (watch_free _) (watch_nameGeneric h))))

theorem differ_watch (a b : PRec) : WatchRec (.differ a b) b := by
  constructor <;> intro i h <;> simp only [PCRec.differ] at h ⊢ <;> split at h <;> first | assumption | cases h

theorem differ_same (a b : PRec) : SameRec (.differ a b) a := ⟨fun _ => rfl, fun _ => rfl⟩

theorem panics_same (a : PRec) : SameRec (.panics a) a := ⟨fun _ => rfl, fun _ => rfl⟩

/-! ## Only calls that are made -/

/-- What costs something panics. -/
def Alarm (p : PC α) : Prop := ∀ i, 0 < (p i).2 → (p i).1 = .panic

theorem alarm_bind {y : PR α × Nat} {f : List Char → α → PR β × Nat}
    (hy : 0 < y.2 → y.1 = .panic) (hf : ∀ r a, 0 < (f r a).2 → (f r a).1 = .panic) (h : 0 < (bindC y f).2) :
    (bindC y f).1 = .panic := by
  rw [bindC_fst]
  by_cases h0 : 0 < y.2
  · rw [hy h0]; rfl
  · revert h
    unfold bindC
    cases hy1 : y.1 with
    | ok r a => exact fun h => hf r a (by dsimp only at h; omega)
    | _ => dsimp only; omega

theorem alarm_none {r : PR α} {p : Prop} (h : 0 < (r, 0).2) : p := absurd h (Nat.lt_irrefl 0)

theorem alarm_free (p : P α) : Alarm (free p) := fun _ h => alarm_none h

theorem alarm_pmap {p : PC α} (f : α → β) (h : Alarm p) : Alarm (pmapC f p) :=
  fun i => alarm_bind (h i) fun _ _ h => alarm_none h

theorem alarm_pair {p : PC α} {p' : PC β} (h : Alarm p) (h' : Alarm p') : Alarm (pairC p p') :=
  fun i => alarm_bind (h i) fun r _ => alarm_bind (h' r) fun _ _ h => alarm_none h

theorem alarm_preceded {p : PC α} {p' : PC β} (h : Alarm p) (h' : Alarm p') : Alarm (precededC p p') :=
  fun i => alarm_bind (h i) fun r _ => h' r

theorem alarm_terminated {p : PC α} {p' : PC β} (h : Alarm p) (h' : Alarm p') : Alarm (terminatedC p p') :=
  fun i => alarm_bind (h i) fun r _ => alarm_bind (h' r) fun _ _ h => alarm_none h

theorem alarm_delimited {p : PC α} {p' : PC β} {p'' : PC γ} (h : Alarm p) (h' : Alarm p') (h'' : Alarm p'') :
    Alarm (delimitedC p p' p'') :=
  alarm_preceded h (alarm_terminated h' h'')

theorem alarm_opt {p : PC α} (h : Alarm p) : Alarm (optC p) := fun i h0 => by
  have h1 : 0 < (p i).2 := by
    revert h0
    unfold optC
    cases (p i).1 <;> exact id
  simp only [optC, h i h1]

theorem alarm_alt {p p' : PC α} (h : Alarm p) (h' : Alarm p') : Alarm (altC p p') := fun i h0 => by
  by_cases h1 : 0 < (p i).2
  · simp only [altC, h i h1]
  · unfold altC at h0 ⊢
    cases hp : (p i).1 with
    | err e => rw [hp] at h0; exact h' i (by dsimp only at h0; omega)
    | panic => rfl
    | _ => rw [hp] at h0; exact absurd h0 h1

theorem alarm_many0Loop {p : PC α} (h : Alarm p) : ∀ k, Alarm (many0LoopC p k) := by
  intro k
  induction k with
  | zero => exact fun _ h => alarm_none h
  | succ k ih =>
    intro i h0
    by_cases h1 : 0 < (p i).2
    · simp only [many0LoopC, h i h1]
    · unfold many0LoopC at h0 ⊢
      cases hp : (p i).1 <;> rw [hp] at h0 <;> try exact absurd h0 h1
      simp only at h0 ⊢
      split
      · rw [if_pos ‹_›] at h0; exact absurd h0 h1
      · rw [if_neg ‹_›] at h0
        exact alarm_bind (ih _) (fun _ _ h => alarm_none h) (by dsimp only at h0; omega)

theorem alarm_many0 {p : PC α} (h : Alarm p) : Alarm (many0C p) := fun i => alarm_many0Loop h _ i

theorem alarm_sepLoop {s : P β} {p : PC α} (h : Alarm p) : ∀ k, Alarm (sepLoopC (free s) p k) := by
  intro k
  induction k with
  | zero => exact fun _ h => alarm_none h
  | succ k ih =>
    intro i h0
    simp only [sepLoopC, free] at h0 ⊢
    cases hs : s i <;> rw [hs] at h0 <;> try exact alarm_none h0
    rename_i r _
    simp only at h0 ⊢
    split
    · rw [if_pos ‹_›] at h0; exact alarm_none h0
    · rw [if_neg ‹_›] at h0
      by_cases h1 : 0 < (p r).2
      · simp only [h r h1]
      · cases hp : (p r).1 <;> rw [hp] at h0 <;> try rfl
        all_goals simp only [Nat.zero_add] at h0
        all_goals try exact absurd h0 h1
        exact alarm_bind (ih _) (fun _ _ h => alarm_none h) ((Nat.add_pos_iff_pos_or_pos.mp h0).resolve_left h1)

theorem alarm_sepList1 {s : P β} {p : PC α} (h : Alarm p) : Alarm (sepList1C (free s) p) :=
  fun i => alarm_bind (h i) fun r _ => alarm_bind (alarm_sepLoop h _ r) fun _ _ h => alarm_none h

theorem alarm_ifOk {y : PR α × Nat} (f : List Char → α → PR β) {g : PR β × Nat}
    (hy : 0 < y.2 → y.1 = .panic) (hg : 0 < g.2 → g.1 = .panic) (h : 0 < (ifOkC y f g).2) : (ifOkC y f g).1 = .panic := by
  by_cases h0 : 0 < y.2
  · simp only [ifOkC, hy h0]
  · unfold ifOkC at h ⊢
    cases hy1 : y.1 <;> rw [hy1] at h <;> dsimp only at h ⊢ <;> first | omega | exact hg (by omega)

/-- The same for the recursive calls. -/
structure AlarmRec (rc : PCRec) : Prop where
  type2 : Alarm rc.type2
  group : Alarm rc.group

theorem alarm_type1 (h : AlarmRec rc) : Alarm (type1C rc) :=
  alarm_pmap _ (alarm_pair h.type2 (alarm_opt (alarm_preceded (alarm_free _) (alarm_pair (alarm_free _)
    (alarm_preceded (alarm_free _) h.type2)))))

theorem alarm_ty (h : AlarmRec rc) : Alarm (tyC rc) := alarm_sepList1 (alarm_type1 h)

theorem alarm_nameGeneric (h : AlarmRec rc) : Alarm (nameGenericC rc) :=
  alarm_pmap _ (alarm_pair (alarm_free _) (alarm_opt (alarm_delimited (alarm_free _) (alarm_sepList1
    (alarm_terminated (alarm_type1 h) (alarm_free _))) (alarm_free _))))

theorem alarm_memberRest (h : AlarmRec rc) (t : Ty1) : Alarm (memberRestC rc t) := fun i =>
  alarm_ifOk _ (alarm_pair (alarm_free _) (alarm_preceded (alarm_free _) (alarm_preceded (alarm_free _) (alarm_ty h))) i)
    (alarm_ifOk _ (alarm_many0 (alarm_preceded (alarm_free slash) (alarm_type1 h)) i) fun h => alarm_none h)

theorem alarm_grpentMember (h : AlarmRec rc) : Alarm (grpentMemberC rc) := fun i =>
  alarm_bind (alarm_terminated (alarm_type1 h) (alarm_free ws) i) fun i' t => by
    split
    · exact alarm_ifOk _ (alarm_preceded (alarm_free _) (alarm_ty h) i') (alarm_memberRest h _ i')
    · exact alarm_ifOk _ (alarm_preceded (alarm_free _) (alarm_ty h) i') (alarm_memberRest h _ i')
    · exact alarm_memberRest h _ i'

theorem alarm_inParens (h : AlarmRec rc) : Alarm (inParensC rc) :=
  alarm_delimited (alarm_free _) (alarm_delimited (alarm_free _) h.group (alarm_free _)) (alarm_free _)

theorem alarm_grpent (h : AlarmRec rc) : Alarm (grpentC rc) :=
  alarm_pmap _ (alarm_pair (alarm_free _) (alarm_alt (alarm_grpentMember h) (alarm_alt (alarm_free _)
    (alarm_pmap _ (alarm_inParens h)))))

theorem alarm_grpchoice (h : AlarmRec rc) : Alarm (grpchoiceC rc) :=
  alarm_many0 (alarm_terminated (alarm_grpent h) (alarm_free _))

theorem alarm_group (h : AlarmRec rc) : Alarm (groupC rc) :=
  alarm_pmap _ (alarm_pair (alarm_grpchoice h) (alarm_many0 (alarm_preceded (alarm_free _) (alarm_grpchoice h))))

theorem alarm_type2 (h : AlarmRec rc) : Alarm (type2AltsC x rc) :=
  alarm_alt (alarm_free _) <| alarm_alt (alarm_pmap _ (alarm_nameGeneric h)) <|
  alarm_alt (alarm_pmap _ (alarm_delimited (alarm_free _) (alarm_delimited (alarm_free _) (alarm_ty h) (alarm_free _)) (alarm_free _))) <|
  alarm_alt (alarm_pmap _ (alarm_delimited (alarm_free _) (alarm_delimited (alarm_free _) h.group (alarm_free _)) (alarm_free _))) <|
  alarm_alt (alarm_pmap _ (alarm_delimited (alarm_free _) (alarm_delimited (alarm_free _) h.group (alarm_free _)) (alarm_free _))) <|
  alarm_alt (alarm_pmap _ (alarm_preceded (alarm_free _) (alarm_preceded (alarm_free _) (alarm_nameGeneric h)))) <|
  alarm_alt (alarm_pmap _ (alarm_preceded (alarm_free _) (alarm_preceded (alarm_free _) (alarm_inParens h))))
    (alarm_pmap _ (alarm_preceded (alarm_free _) (alarm_preceded (alarm_free _) (alarm_nameGeneric h))))

theorem panics_alarm (a : PRec) : AlarmRec (.panics a) := by
  constructor <;> intro i h <;> simp only [PCRec.panics] at h ⊢ <;> split at h <;> first | assumption | simp at h

end Cddl
