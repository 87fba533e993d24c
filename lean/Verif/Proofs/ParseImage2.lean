import Verif.Proofs.ParseImage

/-!
# Every parsed tree can be printed: groups and rules
-/

namespace Cddl

open Ast (Ty Ty1 Ty2 MemberKeyVal GrpEntVal GrpEnt Group GrpChoice RuleVal)

variable {x : ParseExt} {p : PrintExt} {rec : PRec}

/-- The recursive parsers are the real ones, one level down, or there is no budget left. -/
def IsRec (x : ParseExt) (rec : PRec) : Prop := (∀ i, rec.type2 i = .oof) ∨ ∃ rec', rec.type2 = type2 x rec'

theorem inBrackets_ok {α : Type} {q : P α} {A : α → Prop} {c d : Char} (hq : Post q fun r a => A a ∨ Dead r)
    (hd : d ∈ ")]}".toList) : Post (delimited (chr c) (delimited ws q ws) (chr d)) fun _ => A := by
  intro i r a e
  obtain ⟨r1, a1, h1, h2⟩ := pbind_ok e
  obtain ⟨r2, a2, h3, h4⟩ := pbind_ok h2
  obtain ⟨r3, a3, h5, h6⟩ := pbind_ok h4
  cases h6
  obtain ⟨r4, a4, h7, h8⟩ := pbind_ok h3
  obtain ⟨r5, a5, h9, h10⟩ := pbind_ok h8
  obtain ⟨r6, a6, h11, h12⟩ := pbind_ok h10
  cases h12
  rcases hq _ _ _ h9 with h | h
  · exact h
  · exfalso
    obtain ⟨t, hw⟩ := ws_trim r5
    rw [h.trim, h11] at hw
    cases hw
    have key : ∀ d ∈ ")]}".toList, ¬ ('.' = d) ∧ ¬ ('<' = d) ∧ ¬ ('\'' = d) ∧ ¬ ('/' = d) := by decide
    obtain ⟨e, he⟩ := chr_err (h.not (q := fun e => e = d) (key d hd))
    rw [he] at h5
    cases h5

theorem post_grpentVal (hrec : IsRec x rec) (ht : Post rec.type2 fun _ t => OkTy2 x p t)
    (hg : Post rec.group fun r g => (g ≠ [] ∧ OkGroup x p g) ∨ Dead r) :
    Post (grpentVal rec) fun r v => OkVal x p v ∨ (Dead (trim r) ∧ ∀ r' v', grpentVal rec (trim r) ≠ .ok r' v') := by
  intro i r v e
  unfold grpentVal at e
  rcases palt_ok e with h | ⟨⟨e1, h1⟩, h⟩
  · exact .inl (post_member ht _ _ _ h)
  · rcases palt_ok h with h | ⟨-, h⟩
    · right
      obtain ⟨r', s, h2, h3⟩ := pbind_ok h
      cases h3
      rcases hrec with hrec | ⟨rec', hrec⟩
      · simp [grpentMember, terminated, type1, pmap, pair, hrec] at h1
      · exact groupname_dead hrec h1 h2
    · left
      obtain ⟨r', g, h2, h3⟩ := pbind_ok h
      cases h3
      simp only [OkVal]
      exact inBrackets_ok hg (by decide) _ _ _ h2

theorem post_occur : Post occur fun _ o => OkOccur o := by
  refine (post_sound fun n => sound_occur (n := n)).imp ?_
  rintro r o ⟨s, h⟩
  exact h.ok

theorem occur_dead {r : List Char} (h : Dead r) : opt (terminated occur ws) r = .ok r none :=
  occur_none (.inl (h.not (by unfold Digit; decide)))

theorem post_grpent (hrec : IsRec x rec) (ht : Post rec.type2 fun _ t => OkTy2 x p t)
    (hg : Post rec.group fun r g => (g ≠ [] ∧ OkGroup x p g) ∨ Dead r) :
    Post (grpent rec) fun r v => OkEntry x p v ∨ (Dead (trim r) ∧ ∀ r' v', grpent rec (trim r) ≠ .ok r' v') := by
  intro i r e he
  obtain ⟨_, ⟨o, v⟩, h1, h2⟩ := pbind_ok he
  cases h2
  obtain ⟨r1, o', h3, h4⟩ := pbind_ok h1
  obtain ⟨r2, v', h5, h6⟩ := pbind_ok h4
  cases h6
  rcases post_grpentVal hrec ht hg _ _ _ h5 with h | ⟨h, h'⟩
  · left
    have ho := post_opt (post_terminated post_occur) _ _ _ h3
    cases o with
    | none => simpa only [OkEntry] using h
    | some o => simp only [OkEntry]; exact ⟨ho o rfl, h⟩
  · right
    refine ⟨h, fun r' v' he => ?_⟩
    obtain ⟨_, ⟨o2, v2⟩, h7, h8⟩ := pbind_ok he
    cases h8
    obtain ⟨r3, o3, h9, h10⟩ := pbind_ok h7
    rw [occur_dead h] at h9
    cases h9
    obtain ⟨r4, v4, h11, h12⟩ := pbind_ok h10
    exact h' _ _ h11

theorem optcom_dead {r r' : List Char} {u : Unit} (h : Dead (trim r)) (ho : optcom r = .ok r' u) : r' = trim r := by
  obtain ⟨t, hw⟩ := ws_trim r
  obtain ⟨e, hc⟩ : ∃ e, tag "," (trim r) = .err e := tag_err fun r' he => by
    obtain ⟨c, u, hcu, hc⟩ := h
    rw [hcu] at he
    cases he
    rcases hc with hc | hc | hc | ⟨hc, -⟩ <;> cases hc
  simp only [optcom, pmap, pair, hw, opt, hc, PR.bind] at ho
  cases ho
  rfl

theorem post_grpchoice (hrec : IsRec x rec) (ht : Post rec.type2 fun _ t => OkTy2 x p t)
    (hg : Post rec.group fun r g => (g ≠ [] ∧ OkGroup x p g) ∨ Dead r) :
    Post (grpchoice rec) fun r es => OkChoice x p es ∨ Dead r := by
  have key : ∀ n, Post (many0Loop (terminated (grpent rec) optcom) n) fun r es => OkChoice x p es ∨ Dead r := by
    intro n
    induction n with
    | zero => intro i r as e; cases e
    | succ n ih =>
      intro i r as e
      simp only [many0Loop] at e
      cases h : terminated (grpent rec) optcom i with
      | ok r' a =>
        rw [h] at e
        dsimp only at e
        split at e
        · cases e
        · obtain ⟨r'', b', h3, h4⟩ := pbind_ok e
          cases h4
          obtain ⟨r1, a1, h5, h6⟩ := pbind_ok h
          obtain ⟨r2, u, h7, h8⟩ := pbind_ok h6
          cases h8
          rcases post_grpent hrec ht hg _ _ _ h5 with h | ⟨hd, hn⟩
          · rcases ih _ _ _ h3 with h' | h'
            · simp only [OkChoice]; exact .inl ⟨h, h'⟩
            · exact .inr h'
          · right
            have := optcom_dead hd h7
            subst this
            cases n with
            | zero => cases h3
            | succ n =>
              simp only [many0Loop] at h3
              cases h9 : terminated (grpent rec) optcom (trim r1) with
              | ok r3 a3 =>
                obtain ⟨_, _, h, -⟩ := pbind_ok h9
                exact absurd h (hn _ _)
              | err _ => rw [h9] at h3; cases h3; exact hd
              | _ => rw [h9] at h3; cases h3
      | err _ => rw [h] at e; cases e; simp only [OkChoice]; exact .inl trivial
      | _ => rw [h] at e; cases e
  exact fun i => key _ i

theorem post_group (hrec : IsRec x rec) (ht : Post rec.type2 fun _ t => OkTy2 x p t)
    (hg : Post rec.group fun r g => (g ≠ [] ∧ OkGroup x p g) ∨ Dead r) :
    Post (group rec) fun r g => (g ≠ [] ∧ OkGroup x p g) ∨ Dead r := by
  have hstop : ∀ r, Dead r → ∃ e, preceded (delimited ws (tag "//") ws) (grpchoice rec) r = .err e := by
    intro r h
    obtain ⟨t, hw⟩ := ws_trim r
    rw [h.trim] at hw
    obtain ⟨e, he⟩ : ∃ e, tag "//" r = .err e := tag_err fun r' he => by
      obtain ⟨c, u, rfl, hc⟩ := h
      cases he
      rcases hc with hc | hc | hc | ⟨-, hc⟩
      · cases hc
      · cases hc
      · cases hc
      · exact hc rfl
    exact ⟨e, by simp only [preceded, delimited, terminated, hw, he, PR.bind]⟩
  have key : ∀ n, Post (many0Loop (preceded (delimited ws (tag "//") ws) (grpchoice rec)) n) fun r g =>
      OkGroup x p g ∨ Dead r := by
    intro n
    induction n with
    | zero => intro i r as e; cases e
    | succ n ih =>
      intro i r as e
      simp only [many0Loop] at e
      cases h : preceded (delimited ws (tag "//") ws) (grpchoice rec) i with
      | ok r' a =>
        rw [h] at e
        dsimp only at e
        split at e
        · cases e
        · obtain ⟨r'', b', h3, h4⟩ := pbind_ok e
          cases h4
          rcases post_preceded (post_grpchoice hrec ht hg) _ _ _ h with h | hd
          · rcases ih _ _ _ h3 with h' | h'
            · simp only [OkGroup]; exact .inl ⟨h, h'⟩
            · exact .inr h'
          · right
            cases n with
            | zero => cases h3
            | succ n =>
              simp only [many0Loop] at h3
              obtain ⟨e9, h9⟩ := hstop r' hd
              rw [h9] at h3
              cases h3
              exact hd
      | err _ => rw [h] at e; cases e; simp only [OkGroup]; exact .inl trivial
      | _ => rw [h] at e; cases e
  intro i r g e
  obtain ⟨_, ⟨g1, gs⟩, h1, h2⟩ := pbind_ok e
  cases h2
  obtain ⟨r1, a1, h3, h4⟩ := pbind_ok h1
  obtain ⟨r2, u, h5, h6⟩ := pbind_ok h4
  cases h6
  rcases post_grpchoice hrec ht hg _ _ _ h3 with h | hd
  · rcases key _ _ _ _ h5 with h' | h'
    · simp only [OkGroup]; exact .inl ⟨by simp, h, h'⟩
    · exact .inr h'
  · right
    obtain ⟨e9, h9⟩ := hstop r1 hd
    simp only [many0, many0Loop, h9] at h5
    cases h5
    exact hd

theorem post_type2 (hw : Writes x p) (ht : Post rec.type2 fun _ t => OkTy2 x p t)
    (hg : Post rec.group fun r g => (g ≠ [] ∧ OkGroup x p g) ∨ Dead r) : Post (type2 x rec) fun _ t => OkTy2 x p t := by
  have hval : Post (value x) fun _ v => OkValue x p v := by
    refine (post_sound fun n => sound_value (n := n) x).imp ?_
    rintro r v ⟨s, h⟩
    exact h.ok hw
  refine post_alt (post_pmap (hval.imp fun _ _ h => by simpa only [OkTy2] using h)) <|
    post_alt (post_pmap ((post_name ht).imp fun _ _ h => by simpa only [OkTy2] using h)) <|
    post_alt (post_pmap ((inBrackets_ok (A := fun t => t ≠ [] ∧ OkTy1s x p t) ((post_ty ht).imp fun _ _ h => .inl h)
      (by decide)).imp fun _ _ h => by simpa only [OkTy2] using h)) <|
    post_alt (post_pmap ((inBrackets_ok hg (by decide)).imp fun _ _ h => by simpa only [OkTy2] using h)) <|
    post_alt (post_pmap ((inBrackets_ok hg (by decide)).imp fun _ _ h => by simpa only [OkTy2] using h)) <|
    post_alt (post_pmap ((post_preceded (post_preceded (post_name ht))).imp fun _ _ h => by simpa only [OkTy2] using h)) <|
    post_alt (post_pmap ((post_preceded (post_preceded (inBrackets_ok hg (by decide)))).imp fun _ _ h => by
      simpa only [OkTy2] using h))
    (post_pmap ((post_preceded (post_preceded (post_name ht))).imp fun _ _ h => by simpa only [OkTy2] using h))

theorem post_parsers (hw : Writes x p) (k : Nat) : Post (parsers x k).type2 (fun _ t => OkTy2 x p t) ∧
    Post (parsers x k).group fun r g => (g ≠ [] ∧ OkGroup x p g) ∨ Dead r := by
  induction k with
  | zero => exact ⟨fun i r a e => by simp [parsers] at e, fun i r a e => by simp [parsers] at e⟩
  | succ k ih =>
    refine ⟨post_type2 hw ih.1 ih.2, post_group ?_ ih.1 ih.2⟩
    cases k with
    | zero => exact .inl fun i => rfl
    | succ k => exact .inr ⟨_, rfl⟩

theorem post_rec (hw : Writes x p) : Post (parserRec x).type2 (fun _ t => OkTy2 x p t) ∧
    Post (parserRec x).group fun r g => (g ≠ [] ∧ OkGroup x p g) ∨ Dead r :=
  ⟨fun i r a e => by rw [parserRec_type2] at e; exact (post_parsers hw _).1 _ _ _ e,
   fun i r a e => by rw [parserRec_group] at e; exact (post_parsers hw _).2 _ _ _ e⟩

/-! ## Rules -/

theorem alt_err_both {α : Type} {p q : P α} {i : List Char} {e : ParseError} (h : alt p q i = .err e) :
    (∃ e, p i = .err e) ∧ q i = .err e := by
  unfold alt at h
  cases hp : p i with
  | err e => rw [hp] at h; exact ⟨⟨e, rfl⟩, h⟩
  | _ => rw [hp] at h; cases h

theorem pmap_err {α β : Type} {f : α → β} {p : P α} {i : List Char} {e : ParseError} (h : pmap f p i = .err e) :
    p i = .err e := by
  unfold pmap at h
  cases hp : p i with
  | err e => rw [hp] at h; cases h; rfl
  | _ => rw [hp] at h; cases h

/-- Where no type can be read there is neither a number nor an identifier. -/
theorem type2_err_inv {rec' : PRec} {i : List Char} {e : ParseError} (h : type2 x rec' i = .err e) :
    (∀ r a, uint i ≠ .ok r a) ∧ ∀ r a, ident i ≠ .ok r a := by
  unfold type2 at h
  obtain ⟨⟨e1, h1⟩, h⟩ := alt_err_both h
  obtain ⟨⟨e2, h2⟩, -⟩ := alt_err_both h
  have h1 := pmap_err h1
  have h2 := pmap_err h2
  constructor
  · unfold value at h1
    obtain ⟨⟨e3, h3⟩, -⟩ := alt_err_both h1
    intro r a hu
    have hd : NotHead (fun c => c = '-') i := by
      cases i with
      | nil => trivial
      | cons c u =>
        rintro rfl
        obtain ⟨e, he⟩ := uint_err (i := '-' :: u) (notHead_cons (p := Digit) (by unfold Digit; decide) _)
        rw [he] at hu
        cases hu
    have hm := opt_minus_none hd
    simp only [floatOrInt, mapResFail, recognizer, pair, int, pmap, hm, hu, PR.bind] at h3
    cases hf : opt dotFraction r with
    | err e => exact opt_not_err hf
    | ok r2 o2 =>
      rw [hf] at h3
      simp only [PR.bind] at h3
      cases hx : opt eExponent r2 with
      | err e => exact opt_not_err hx
      | ok r3 o3 =>
        rw [hx] at h3
        simp only at h3
        split at h3 <;> cases h3
      | _ => rw [hx] at h3; cases h3
    | _ => rw [hf] at h3; cases h3
  · intro r a hi
    simp only [nameGenericP, pmap, pair, hi, PR.bind] at h2
    cases hf : opt (genericArg rec') r with
    | err e => exact opt_not_err hf
    | _ => rw [hf] at h2; cases h2

theorem sepLoop_not_err {α β : Type} {sep : P β} {p : P α} (h : ∀ i r a, sep i = .ok r a → r.length < i.length)
    (n : Nat) : ∀ (i : List Char) (e : ParseError), sepLoop sep p n i ≠ .err e := by
  induction n with
  | zero => intro i e he; cases he
  | succ n ih =>
    intro i e he
    simp only [sepLoop] at he
    cases h1 : sep i with
    | ok r a =>
      rw [h1] at he
      have := h i r a h1
      simp only [show ¬ r.length = i.length by omega, if_false] at he
      cases h2 : p r with
      | ok r2 a2 =>
        rw [h2] at he
        simp only at he
        cases h3 : sepLoop sep p n r2 with
        | err e => exact ih _ _ h3
        | _ => rw [h3] at he; cases he
      | _ => rw [h2] at he; cases he
    | _ => rw [h1] at he; cases he

theorem slash_lt (i r a : List Char) (h : slash i = .ok r a) : r.length < i.length := by
  have := sound_slash (n := i.length) i (Nat.le_refl _)
  rw [h] at this
  obtain ⟨s, hr, w, w', rfl, -⟩ := this
  exact readsRel.lt hr (by simp)

theorem ty_err_inv {i : List Char} {e : ParseError} (h : ty (parserRec x) i = .err e) :
    ∃ e, type2 x (parserRec x) i = .err e := by
  rw [← parserRec_type2_eq]
  cases ht : (parserRec x).type2 i with
  | err e => exact ⟨e, rfl⟩
  | ok r t =>
    exfalso
    simp only [ty, sepList1, type1, pmap, pair, ht, PR.bind] at h
    cases ho : opt (preceded ws (rangeOrControlOp (parserRec x))) r with
    | err e => exact opt_not_err ho
    | ok r2 o =>
      rw [ho] at h
      simp only at h
      cases hl : sepLoop slash (type1 (parserRec x)) (r2.length + 1) r2 with
      | err e => exact sepLoop_not_err slash_lt _ _ _ hl
      | _ =>
        have hl' := hl
        unfold type1 at hl'
        rw [hl'] at h
        cases h
    | _ => rw [ho] at h; cases h
  | _ => simp [ty, sepList1, type1, pmap, pair, ht] at h

theorem isRec_rec : IsRec x (parserRec x) := .inr ⟨_, parserRec_type2_eq⟩

/-- A group entry read where no type could be read. -/
theorem ruleEntry_of {i r : List Char} {e : GrpEnt} {err : ParseError} (ht : ty (parserRec x) i = .err err)
    (he : grpent (parserRec x) i = .ok r e) : RuleEntry e := by
  obtain ⟨e2, h2⟩ := ty_err_inv ht
  obtain ⟨hu, hi⟩ := type2_err_inv h2
  obtain ⟨_, ⟨o, v⟩, h3, h4⟩ := pbind_ok he
  cases h4
  obtain ⟨r1, o', h5, h6⟩ := pbind_ok h3
  obtain ⟨r2, v', h7, h8⟩ := pbind_ok h6
  cases h8
  cases o with
  | none =>
    have := opt_none h5
    subst this
    have hm : ∃ e, grpentMember (parserRec x) r1 = .err e :=
      ⟨e2, by simp only [grpentMember, terminated, type1, pmap, pair, parserRec_type2_eq, h2, PR.bind]⟩
    obtain ⟨e3, hm⟩ := hm
    unfold grpentVal at h7
    rw [alt_err hm] at h7
    rcases palt_ok h7 with h | ⟨-, h⟩
    · obtain ⟨_, s, h9, -⟩ := pbind_ok h
      exact absurd h9 (hi _ _)
    · obtain ⟨_, g, h9, h10⟩ := pbind_ok h
      cases h10
      trivial
  | some o =>
    obtain ⟨r3, o2, h9, h10⟩ := pbind_ok (opt_some h5)
    obtain ⟨_, _, -, h11⟩ := pbind_ok h10
    cases h11
    cases o with
    | numbered n m =>
      unfold occur at h9
      rcases palt_ok h9 with h | ⟨-, h⟩
      · unfold occurStar mapRes at h
        obtain ⟨r4, ⟨lo, st, up⟩, h12, h13⟩ := pbind_ok h
        obtain ⟨r5, lo', h14, h15⟩ := pbind_ok h12
        obtain ⟨r6, b, -, h16⟩ := pbind_ok h15
        cases h16
        cases lo with
        | none =>
          cases up with
          | none => cases h13
          | some up => cases h13; rfl
        | some lo =>
          have h := opt_some h14
          obtain ⟨a, h⟩ := mapResFail_ok h
          exact absurd h (hu _ _)
      · rcases palt_ok h with h | ⟨-, h⟩
        · obtain ⟨_, _, -, h⟩ := pbind_ok h; cases h
        · obtain ⟨_, _, -, h⟩ := pbind_ok h; cases h
    | _ => trivial

theorem post_rule (hw : Writes x p) : Post (rule x) fun r q => OkRule x p q ∨ Dead (trim r) := by
  intro i r q e
  obtain ⟨_, ⟨⟨n, o⟩, v⟩, h1, h2⟩ := pbind_ok e
  cases h2
  obtain ⟨r1, no, h3, h4⟩ := pbind_ok h1
  obtain ⟨r2, v', h5, h6⟩ := pbind_ok h4
  cases h6
  have hno := post_pair post_ident (post_opt (A := fun as => ∀ a ∈ as, Ident a) (post_preceded (post_terminated
    ((post_sepList1 (post_terminated post_ident)).imp fun _ _ h => h.2)))) _ _ _ h3
  obtain ⟨hn, ho⟩ := hno
  have hparams : ∀ a ∈ (o.getD []).map String.ofList, Ident a.toList := by
    intro a ha
    obtain ⟨b, hb, rfl⟩ := List.mem_map.1 ha
    cases o with
    | none => cases hb
    | some as => rw [String.toList_ofList]; exact ho as rfl b hb
  obtain ⟨r3, _, -, h7⟩ := pbind_ok h5
  obtain ⟨r4, _, -, h8⟩ := pbind_ok h7
  obtain ⟨r5, _, -, h9⟩ := pbind_ok h8
  rcases palt_ok h9 with h | ⟨⟨e1, he⟩, h⟩
  · obtain ⟨_, t, h10, h11⟩ := pbind_ok h
    cases h11
    exact .inl ⟨by simpa using hn, hparams, post_ty (post_rec hw).1 _ _ _ h10⟩
  · obtain ⟨_, t, h10, h11⟩ := pbind_ok h
    cases h11
    rcases post_grpent isRec_rec (post_rec hw).1 (post_rec hw).2 _ _ _ h10 with h | ⟨h, -⟩
    · exact .inl ⟨by simpa using hn, hparams, h, ruleEntry_of (pmap_err he) h10⟩
    · exact .inr h

theorem dead_rules {r r' r2 t : List Char} {n : Nat} {qs : List Ast.Rule} (hd : Dead (trim r)) (hw : ws r = .ok r' t)
    (h : many0Loop (terminated (rule x) ws) n r' = .ok r2 qs) : r2 ≠ [] := by
  have := trim_of_ws hw
  rw [this] at hd
  obtain ⟨e, he⟩ := ident_err (hd.not (q := EAlpha) (by unfold EAlpha; decide))
  have hr : terminated (rule x) ws r' = .err e := by simp only [terminated, rule, pmap, pair, he, PR.bind]
  cases n with
  | zero => cases h
  | succ n =>
    simp only [many0Loop, hr] at h
    cases h
    obtain ⟨c, u, rfl, -⟩ := hd
    simp

theorem post_rules (hw : Writes x p) (n : Nat) : Post (many0Loop (terminated (rule x) ws) n) fun r qs =>
    (∀ q ∈ qs, OkRule x p q) ∨ r ≠ [] := by
  induction n with
  | zero => intro i r as e; cases e
  | succ n ih =>
    intro i r as e
    simp only [many0Loop] at e
    cases h : terminated (rule x) ws i with
    | ok r' a =>
      rw [h] at e
      dsimp only at e
      split at e
      · cases e
      · obtain ⟨r'', b', h3, h4⟩ := pbind_ok e
        cases h4
        obtain ⟨r1, a1, h5, h6⟩ := pbind_ok h
        obtain ⟨r2, u, h7, h8⟩ := pbind_ok h6
        cases h8
        rcases post_rule hw _ _ _ h5 with h | hd
        · rcases ih _ _ _ h3 with h' | h'
          · left
            intro q hq
            rcases List.mem_cons.1 hq with rfl | hq
            · exact h
            · exact h' q hq
          · exact .inr h'
        · right
          exact dead_rules hd h7 h3
    | err _ => rw [h] at e; cases e; exact .inl (by simp)
    | _ => rw [h] at e; cases e

/-- Every tree the parser returns can be printed. -/
theorem parseCddl_ok (hw : Writes x p) {s : String} {c : Ast.Cddl} (h : parseCddl x s = .ok c) : OkCddl x p c := by
  unfold parseCddl allConsuming at h
  cases hc : cddl x s.toList with
  | ok r a =>
    rw [hc] at h
    simp only [PR.bind] at h
    split at h
    · rename_i hz
      have hr := List.length_eq_zero_iff.1 hz
      subst hr
      cases h
      obtain ⟨r1, t1, -, h1⟩ := pbind_ok hc
      obtain ⟨r2, q, h2, h3⟩ := pbind_ok h1
      obtain ⟨r3, qs, h4, h5⟩ := pbind_ok h3
      cases h5
      obtain ⟨r4, q', h6, h7⟩ := pbind_ok h2
      obtain ⟨r5, t5, h8, h9⟩ := pbind_ok h7
      cases h9
      refine ⟨by simp, fun q2 hq2 => ?_⟩
      rcases post_rule hw _ _ _ h6 with h | hd
      · rcases post_rules hw _ _ _ _ h4 with h' | h'
        · rcases List.mem_cons.1 hq2 with rfl | hq2
          · exact h
          · exact h' q2 hq2
        · exact absurd rfl h'
      · exact absurd rfl (dead_rules hd h8 h4)
    · cases h
  | _ => rw [hc] at h; cases h

end Cddl
