import Verif.Proofs.ParseSound

/-!
# The recursion budget of the parser model does not matter

A larger budget never changes an outcome other than `oof`, so `parserRec` satisfies the equations of the recursive
Rust functions (`parserRec_type2_eq`, `parserRec_group_eq`).
-/

namespace Cddl

/-- Equal, unless the first ran out of budget. -/
def PR.Le {α : Type} (a b : PR α) : Prop := a = .oof ∨ a = b

/-- `PR.Le` at every text. -/
def PLe {α : Type} (p q : P α) : Prop := ∀ i, (p i).Le (q i)

section
variable {α β γ : Type}

theorem PR.Le.refl (a : PR α) : a.Le a := .inr rfl

theorem PLe.refl (p : P α) : PLe p p := fun i => .inr rfl

theorem PR.Le.bind {a b : PR α} {f g : List Char → α → PR β} (h : a.Le b) (hf : ∀ r x, (f r x).Le (g r x)) :
    (a.bind f).Le (b.bind g) := by
  rcases h with rfl | rfl
  · exact .inl rfl
  · cases a with
    | ok r x => exact hf r x
    | _ => exact .inr rfl

theorem PLe.pmap {p q : P α} (f : α → β) (h : PLe p q) : PLe (pmap f p) (pmap f q) :=
  fun i => (h i).bind fun _ _ => .refl _

theorem PLe.pair {p q : P α} {p' q' : P β} (h : PLe p q) (h' : PLe p' q') : PLe (pair p p') (pair q q') :=
  fun i => (h i).bind fun _ _ => (h' _).bind fun _ _ => .refl _

theorem PLe.preceded {p q : P α} {p' q' : P β} (h : PLe p q) (h' : PLe p' q') :
    PLe (preceded p p') (preceded q q') := fun i => (h i).bind fun _ _ => h' _

theorem PLe.terminated {p q : P α} {p' q' : P β} (h : PLe p q) (h' : PLe p' q') :
    PLe (terminated p p') (terminated q q') := fun i => (h i).bind fun _ _ => (h' _).bind fun _ _ => .refl _

theorem PLe.delimited {p q : P α} {p' q' : P β} {p'' q'' : P γ} (h : PLe p q) (h' : PLe p' q') (h'' : PLe p'' q'') :
    PLe (delimited p p' p'') (delimited q q' q'') := h.preceded (h'.terminated h'')

theorem PLe.opt {p q : P α} (h : PLe p q) : PLe (opt p) (opt q) := fun i => by
  simp only [Cddl.opt]
  rcases h i with h | h
  · rw [h]; exact .inl rfl
  · rw [h]; exact .refl _

theorem PLe.alt {p q p' q' : P α} (h : PLe p q) (h' : PLe p' q') : PLe (alt p p') (alt q q') := fun i => by
  simp only [Cddl.alt]
  rcases h i with h | h
  · rw [h]; exact .inl rfl
  · rw [h]
    cases q i with
    | err e => exact h' i
    | _ => exact .refl _

theorem PLe.many0 {p q : P α} (h : PLe p q) : PLe (many0 p) (many0 q) := by
  have key : ∀ k i, (many0Loop p k i).Le (many0Loop q k i) := by
    intro k
    induction k with
    | zero => intro i; exact .inl rfl
    | succ k ih =>
      intro i
      simp only [many0Loop]
      rcases h i with h | h
      · rw [h]; exact .inl rfl
      · rw [h]
        cases q i with
        | ok r a =>
          dsimp only
          split
          · exact .refl _
          · exact (ih r).bind fun _ _ => .refl _
        | _ => exact .refl _
  exact fun i => key _ i

theorem PLe.sepList1 {p q : P α} {s : P β} (h : PLe p q) : PLe (sepList1 s p) (sepList1 s q) := by
  have key : ∀ k i, (sepLoop s p k i).Le (sepLoop s q k i) := by
    intro k
    induction k with
    | zero => intro i; exact .inl rfl
    | succ k ih =>
      intro i
      simp only [sepLoop]
      cases s i with
      | ok r b =>
        dsimp only
        split
        · exact .refl _
        · rcases h r with h | h
          · rw [h]; exact .inl rfl
          · rw [h]
            cases q r with
            | ok r' a => exact (ih r').bind fun _ _ => .refl _
            | _ => exact .refl _
      | _ => exact .refl _
  exact fun i => (h i).bind fun r _ => (key _ r).bind fun _ _ => .refl _

theorem PR.Le.ifOk {a b : PR α} {f g : List Char → α → PR β} {c d : PR β} (h : a.Le b)
    (hf : ∀ r x, (f r x).Le (g r x)) (hc : c.Le d) : (ifOk a f c).Le (ifOk b g d) := by
  rcases h with rfl | rfl
  · exact .inl rfl
  · cases a with
    | ok r x => exact hf r x
    | err e => exact hc
    | fail e => exact hc
    | _ => exact .inr rfl

end

/-- Both recursive parsers. -/
structure RLe (r r' : PRec) : Prop where
  type2 : PLe r.type2 r'.type2
  group : PLe r.group r'.group

section
variable {x : ParseExt} {r r' : PRec} (h : RLe r r')
include h

theorem type1_mono : PLe (type1 r) (type1 r') :=
  (h.type2.pair (PLe.opt ((PLe.refl ws).preceded ((PLe.refl _).pair ((PLe.refl ws).preceded h.type2))))).pmap _

theorem ty_mono : PLe (ty r) (ty r') := (type1_mono h).sepList1

theorem nameGeneric_mono : PLe (nameGenericP r) (nameGenericP r') :=
  ((PLe.refl ident).pair (PLe.opt ((PLe.refl _).delimited
    (PLe.sepList1 ((type1_mono h).terminated (PLe.refl ws))) (PLe.refl _)))).pmap _

theorem memberRest_mono (t : Ast.Ty1) : PLe (memberRest r t) (memberRest r' t) := fun i =>
  PR.Le.ifOk (((PLe.refl _).pair ((PLe.refl _).preceded ((PLe.refl ws).preceded (ty_mono h)))) i)
    (fun _ _ => .refl _)
    (PR.Le.ifOk ((PLe.many0 ((PLe.refl slash).preceded (type1_mono h))) i) (fun _ _ => .refl _) (.refl _))

theorem grpentMember_mono : PLe (grpentMember r) (grpentMember r') := fun i => by
  refine (((type1_mono h).terminated (PLe.refl ws)) i).bind fun i' first => ?_
  split
  · exact PR.Le.ifOk (((PLe.refl _).preceded (ty_mono h)) i') (fun _ _ => .refl _) (memberRest_mono h _ i')
  · exact PR.Le.ifOk (((PLe.refl _).preceded (ty_mono h)) i') (fun _ _ => .refl _) (memberRest_mono h _ i')
  · exact memberRest_mono h _ i'

theorem inParens_mono : PLe (inParens r) (inParens r') :=
  (PLe.refl _).delimited ((PLe.refl ws).delimited h.group (PLe.refl ws)) (PLe.refl _)

theorem grpent_mono : PLe (grpent r) (grpent r') :=
  ((PLe.refl _).pair ((grpentMember_mono h).alt ((PLe.refl _).alt ((inParens_mono h).pmap _)))).pmap _

theorem grpchoice_mono : PLe (grpchoice r) (grpchoice r') := ((grpent_mono h).terminated (PLe.refl optcom)).many0

theorem group_mono : PLe (group r) (group r') :=
  ((grpchoice_mono h).pair (PLe.many0 ((PLe.refl _).preceded (grpchoice_mono h)))).pmap _

theorem type2_mono : PLe (type2 x r) (type2 x r') := by
  have hb : ∀ {α : Type} {p q : P α} (c d : Char), PLe p q →
      PLe (delimited (chr c) (delimited ws p ws) (chr d)) (delimited (chr c) (delimited ws q ws) (chr d)) :=
    fun c d hp => (PLe.refl _).delimited ((PLe.refl ws).delimited hp (PLe.refl ws)) (PLe.refl _)
  exact (PLe.refl _).alt <| ((nameGeneric_mono h).pmap _).alt <| (PLe.pmap _ (hb _ _ (ty_mono h))).alt <|
    (PLe.pmap _ (hb _ _ h.group)).alt <| (PLe.pmap _ (hb _ _ h.group)).alt <|
    (PLe.pmap _ ((PLe.refl _).preceded ((PLe.refl ws).preceded (nameGeneric_mono h)))).alt <|
    (PLe.pmap _ ((PLe.refl _).preceded ((PLe.refl ws).preceded (inParens_mono h)))).alt
      (PLe.pmap _ ((PLe.refl _).preceded ((PLe.refl ws).preceded (nameGeneric_mono h))))

end

variable {x : ParseExt}

theorem parsers_succ (k : Nat) : RLe (parsers x k) (parsers x (k + 1)) := by
  induction k with
  | zero => exact ⟨fun i => .inl rfl, fun i => .inl rfl⟩
  | succ k ih => exact ⟨type2_mono ih, group_mono ih⟩

theorem PR.Le.trans {α : Type} {a b c : PR α} (h : a.Le b) (h' : b.Le c) : a.Le c := by
  rcases h with h | rfl
  · exact .inl h
  · exact h'

theorem parsers_le {k m : Nat} (h : k ≤ m) : RLe (parsers x k) (parsers x m) := by
  induction h with
  | refl => exact ⟨PLe.refl _, PLe.refl _⟩
  | step _ ih =>
    exact ⟨fun i => (ih.type2 i).trans ((parsers_succ _).type2 i),
      fun i => (ih.group i).trans ((parsers_succ _).group i)⟩

theorem good_ne_oof {α : Type} {R : List Char → List Char → List Char → Prop} {G : List Char → α → Prop}
    {i : List Char} {a : PR α} (h : a.Good R G i) : a ≠ .oof := by rintro rfl; exact h

/-- With a budget of at least `2 * length + 2`, the outcome is that of `parserRec`. -/
theorem parsers_enough {k : Nat} {i : List Char} (h : 2 * i.length + 2 ≤ k) :
    (parsers x k).type2 i = (parserRec x).type2 i ∧ (parsers x k).group i = (parserRec x).group i := by
  rw [parserRec_type2, parserRec_group]
  constructor
  · rcases (parsers_le (x := x) h).type2 i with h' | h'
    · exact absurd h' (good_ne_oof ((sound_parsers _).1 i.length (by omega) i (Nat.le_refl _)))
    · exact h'.symm
  · rcases (parsers_le (x := x) h).group i with h' | h'
    · exact absurd h' (good_ne_oof ((sound_parsers _).2 i.length (by omega) i (Nat.le_refl _)))
    · exact h'.symm

theorem parsers_le_rec (k : Nat) : RLe (parsers x k) (parserRec x) := by
  constructor
  · intro i
    rcases Nat.le_total k (2 * i.length + 2) with h | h
    · rw [parserRec_type2]; exact (parsers_le h).type2 i
    · rw [(parsers_enough h).1]; exact .refl _
  · intro i
    rcases Nat.le_total k (2 * i.length + 2) with h | h
    · rw [parserRec_group]; exact (parsers_le h).group i
    · rw [(parsers_enough h).2]; exact .refl _

theorem parserRec_type2_eq : (parserRec x).type2 = type2 x (parserRec x) := by
  funext i
  have h1 := (parsers_enough (x := x) (i := i) (k := 2 * i.length + 2 + 1) (by omega)).1
  have h2 := type2_mono (x := x) (parsers_le_rec (x := x) (2 * i.length + 2)) i
  rw [← h1]
  rcases h2 with h2 | h2
  · exact absurd h2 (good_ne_oof ((sound_parsers (x := x) (2 * i.length + 2 + 1)).1 i.length (by omega) i
      (Nat.le_refl _)))
  · exact h2

theorem parserRec_group_eq : (parserRec x).group = group (parserRec x) := by
  funext i
  have h1 := (parsers_enough (x := x) (i := i) (k := 2 * i.length + 2 + 1) (by omega)).2
  have h2 := group_mono (parsers_le_rec (x := x) (2 * i.length + 2)) i
  rw [← h1]
  rcases h2 with h2 | h2
  · exact absurd h2 (good_ne_oof ((sound_parsers (x := x) (2 * i.length + 2 + 1)).2 i.length (by omega) i
      (Nat.le_refl _)))
  · exact h2

end Cddl
