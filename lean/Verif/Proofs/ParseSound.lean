import Verif.Proofs.ParseTok

/-!
# What the parser consumes is what the grammar says

`sound_parsers`: with enough budget the recursive parsers neither panic nor run out of budget, and the text they
consume derives, in the grammar of Spec/Grammar, the tree they return.
-/

namespace Cddl

open Ast (Ty Ty1 Ty2 MemberKeyVal GrpEntVal GrpEnt Group GrpChoice RuleVal)

section
variable {x : ParseExt} {st : Bool}

theorem GName.ne {s n as} (h : GName x st s n as) : s ≠ [] := by
  cases h with
  | plain h => exact h.ne
  | generic h _ _ => simp

theorem GTy2.ne {s t} (h : GTy2 x st s t) : s ≠ [] := by
  cases h with
  | value h => exact h.ne
  | name h => exact h.ne
  | _ => simp

theorem GTy1.ne {s t} (h : GTy1 x st s t) : s ≠ [] := by
  cases h with
  | simple h => exact h.ne
  | _ => simp

theorem GTy.ne {s t} (h : GTy x st s t) : s ≠ [] := by
  cases h with
  | one h => exact h.ne
  | cons => simp

theorem GVal.ne {s v} (h : GVal x st s v) : s ≠ [] := by
  cases h with
  | member h _ _ => simp [h.ne]
  | groupname h _ => exact h.ne
  | _ => simp

theorem GEntry.ne {s e} (h : GEntry x st s e) : s ≠ [] := by
  cases h with
  | plain h => exact h.ne
  | occur _ _ h _ => simp [h.ne]

theorem GRule.ne {s r} (h : GRule x st s r) : s ≠ [] := by
  cases h; simp

end

theorem Ident.not_dot {op : List Char} (h : Ident op) (t : List Char) : op ≠ '.' :: t := by
  cases h with
  | mk h _ =>
    rintro ⟨⟩
    revert h
    unfold EAlpha
    decide

variable {x : ParseExt} {n : Nat} {r : PRec}

theorem sound_rangeOrControlOp (ht : ParsesTo Reads n r.type2 (GTy2 x false)) :
    ParsesTo Reads n (rangeOrControlOp r) (fun s p => ∃ o w s', s = o ++ (w ++ s') ∧ WS w ∧ GTy2 x false s' p.2 ∧
      ((o = ['.', '.', '.'] ∧ p.1 = o) ∨ (o = ['.', '.'] ∧ p.1 = o) ∨ (o = '.' :: p.1 ∧ Ident p.1))) := by
  have h1 : ParsesTo Reads n (alt (tag "...") (alt (tag "..") controlOp)) (fun o a =>
      (o = ['.', '.', '.'] ∧ a = o) ∨ (o = ['.', '.'] ∧ a = o) ∨ (o = '.' :: a ∧ Ident a)) := by
    refine sound_alt ((sound_tag readsRel _).imp ?_) (sound_alt ((sound_tag readsRel _).imp ?_)
      ((sound_preceded readsRel (sound_tag readsRel _) (sound_ident.exact readsRel)).imp ?_))
    · rintro s a ⟨rfl, rfl⟩; exact .inl ⟨rfl, rfl⟩
    · rintro s a ⟨rfl, rfl⟩; exact .inr (.inl ⟨rfl, rfl⟩)
    · rintro s a ⟨s1, s2, b, rfl, ⟨rfl, -⟩, rfl, h⟩; exact .inr (.inr ⟨rfl, h⟩)
  refine (sound_pair readsRel h1 (sound_preceded readsRel sound_ws ht)).imp ?_
  rintro s ⟨op, a⟩ ⟨o, s2, rfl, ho, w, s', -, rfl, hw, h⟩
  exact ⟨o, w, s', rfl, hw, h, ho⟩

theorem sound_type1 (ht : ParsesTo Reads n r.type2 (GTy2 x false)) : ParsesTo Reads n (type1 r) (GTy1 x false) := by
  refine sound_pmap (sound_pair readsRel ht (sound_opt readsRel (sound_preceded readsRel sound_ws
    (sound_rangeOrControlOp ht)))) ?_
  rintro s ⟨t, o⟩ ⟨s1, s2, rfl, h1, h⟩
  rcases h with ⟨h, rfl⟩ | ⟨⟨op, a⟩, h, w, s3, -, rfl, hw, o, w', s', rfl, hw', h2, ho⟩
  · dsimp only at h
    subst h
    rw [List.append_nil]
    exact .simple h1
  · dsimp only at h ho h1 h2
    subst h
    rcases ho with ⟨rfl, rfl⟩ | ⟨rfl, rfl⟩ | ⟨rfl, hi⟩
    · exact .rangeExcl h1 hw hw' h2 (by simp)
    · exact .range h1 hw hw' h2 (by simp)
    · have e1 : op ≠ "..".toList := hi.not_dot _
      have e2 : op ≠ "...".toList := hi.not_dot _
      simp only [makeType1, e1, e2, if_false]
      exact .control h1 hw hi hw' h2 (by simp)

theorem sound_slash : ParsesTo Reads n slash (fun s _ => ∃ w w', s = w ++ ('/' :: w') ∧ WS w ∧ WS w') := by
  refine (sound_preceded readsRel sound_ws (sound_terminated readsRel (sound_tag readsRel "/") sound_ws)).imp ?_
  rintro s a ⟨w, s2, -, rfl, hw, s3, w', -, rfl, ⟨rfl, -⟩, hw'⟩
  exact ⟨w, w', rfl, hw, hw'⟩

theorem GTy.ofSep {β : Type} {S : List Char → β → Prop} (hS : ∀ c b, S c b → ∃ w w', c = w ++ ('/' :: w') ∧ WS w ∧ WS w')
    {s t : List Char} {a : Ty1} {as : List Ty1} (h : GTy1 x false s a) (hs : SepTail S (GTy1 x false) t as) :
    GTy x false (s ++ t) (a :: as) := by
  induction hs generalizing s a with
  | nil => rw [List.append_nil]; exact .one h
  | cons hc h2 _ ih =>
    obtain ⟨w, w', rfl, hw, hw'⟩ := hS _ _ hc
    have := GTy.cons h hw hw' (ih h2)
    simpa using this

theorem sound_ty (ht : ParsesTo Reads n r.type2 (GTy2 x false)) : ParsesTo Reads n (ty r) (GTy x false) := by
  refine (sound_sepList1 readsRel sound_slash (by rintro s - ⟨w, w', rfl, -⟩; simp) (sound_type1 ht)).imp ?_
  rintro s as ⟨s1, a, s2, bs, rfl, rfl, h1, h2⟩
  exact GTy.ofSep (fun c b h => h) h1 h2

theorem sound_genericArg (ht : ∀ m, m < n → ParsesTo Reads m r.type2 (GTy2 x false)) :
    ParsesTo Reads n (genericArg r) (fun s as => ∃ w a, s = '<' :: w ++ (a ++ ['>']) ∧ WS w ∧ GArgs x false a as) := by
  have h1 : ParsesTo Reads n (pair (tag "<") ws) (fun s _ => ∃ w, s = '<' :: w ∧ WS w) :=
    (sound_pair readsRel (sound_tag readsRel "<") sound_ws).imp (by
      rintro s a ⟨s1, s2, rfl, ⟨rfl, -⟩, hw⟩; exact ⟨s2, rfl, hw⟩)
  refine (sound_preceded_lt readsRel h1 (by rintro s - ⟨w, rfl, -⟩; simp) fun m hm =>
    sound_terminated readsRel (sound_sepList1 readsRel
      (sound_pair readsRel (sound_tag readsRel ",") sound_ws) (by rintro s a ⟨s1, s2, rfl, ⟨rfl, -⟩, -⟩; simp)
      (sound_terminated readsRel (sound_type1 (ht m hm)) sound_ws)) (sound_tag readsRel ">")).imp ?_
  rintro s as ⟨s1, s2, -, rfl, ⟨w, rfl, hw⟩, s3, s4, -, rfl, ⟨s5, a, s6, bs, rfl, rfl, h5, h6⟩, rfl, -⟩
  refine ⟨w, s5 ++ s6, rfl, hw, ?_⟩
  clear hw h1
  induction h6 generalizing s5 a with
  | nil =>
    obtain ⟨s7, w', -, rfl, h7, hw'⟩ := h5
    rw [List.append_nil]; exact .one h7 hw'
  | cons hc h8 _ ih =>
    obtain ⟨s7, w1, -, rfl, h7, hw1⟩ := h5
    obtain ⟨s9, w2, rfl, ⟨rfl, -⟩, hw2⟩ := hc
    have := GArgs.cons h7 hw1 hw2 (ih _ _ h8)
    simpa using this

theorem sound_nameGeneric (ht : ∀ m, m < n → ParsesTo Reads m r.type2 (GTy2 x false)) :
    ParsesTo Reads n (nameGenericP r) (fun s p => GName x false s p.1 p.2) := by
  refine sound_pmap (sound_pair readsRel (sound_ident.exact readsRel) (sound_opt readsRel (sound_genericArg ht))) ?_
  rintro s ⟨a, o⟩ ⟨s1, s2, rfl, ⟨h, hi⟩, h2⟩
  dsimp only at h h2
  subst h
  rcases h2 with ⟨rfl, rfl⟩ | ⟨as, rfl, w, b, rfl, hw, hb⟩
  · rw [List.append_nil]; exact .plain hi
  · exact .generic hi hw hb

theorem sound_inBrackets {α : Type} {p : P α} {G : List Char → α → Prop} {c d : Char}
    (hp : ∀ m, m < n → ParsesTo Reads m p G) :
    ParsesTo Reads n (delimited (chr c) (delimited ws p ws) (chr d))
      (fun s a => ∃ w s' w', s = c :: (w ++ s' ++ w') ++ [d] ∧ WS w ∧ G s' a ∧ WS w') := by
  refine (sound_preceded_lt readsRel (sound_chr readsRel c) (by rintro s - rfl; simp) fun m hm =>
    sound_terminated readsRel (sound_preceded readsRel sound_ws (sound_terminated readsRel (hp m hm) sound_ws))
      (sound_chr readsRel d)).imp ?_
  rintro s a ⟨s1, s2, -, rfl, rfl, s3, s4, -, rfl, ⟨w, s5, -, rfl, hw, s', w', -, rfl, h, hw'⟩, rfl⟩
  exact ⟨w, s', w', by simp, hw, h, hw'⟩

/-- What the group-level parsers need of the recursive ones. -/
structure RecSound (x : ParseExt) (n : Nat) (r : PRec) : Prop where
  type2 : ParsesTo Reads n r.type2 (GTy2 x false)
  group : ∀ m, m < n → ParsesTo Reads m r.group (GGroup x false)

theorem ifOk_good {α β : Type} {G : List Char → α → Prop} {K : List Char → β → Prop} {i : List Char}
    {y : PR α} {f : List Char → α → PR β} {g : PR β} (hy : y.Good Reads G i)
    (hf : ∀ r s a, Reads i r s → G s a → (f r a).Good Reads (fun s' b => K (s ++ s') b) r)
    (hg : g.Good Reads K i) : (ifOk y f g).Good Reads K i := by
  cases y with
  | ok r a => exact PR.Good.bind (x := .ok r a) readsRel hy hf
  | err e => exact hg
  | fail e => exact hg
  | _ => exact hy

theorem sound_memberkeyTail (ht : ParsesTo Reads n r.type2 (GTy2 x false)) :
    ParsesTo Reads n (memberkeyTail r) (fun s t => ∃ w s', s = ':' :: w ++ s' ∧ WS w ∧ GTy x false s' t) := by
  refine (sound_preceded readsRel (sound_pair readsRel (sound_tag readsRel ":") sound_ws) (sound_ty ht)).imp ?_
  rintro s t ⟨s1, s2, -, rfl, ⟨s3, s4, rfl, ⟨rfl, -⟩, hw⟩, h⟩
  exact ⟨s4, s2, rfl, hw, h⟩

theorem sound_arrowTail (ht : ParsesTo Reads n r.type2 (GTy2 x false)) :
    ParsesTo Reads n (arrowTail r) (fun s p => ∃ c w s', s = c ++ ('=' :: '>' :: w) ++ s' ∧ WS w ∧ GTy x false s' p.2 ∧
      ((p.1 = none ∧ c = []) ∨ (p.1.isSome = true ∧ ∃ v, c = '^' :: v ∧ WS v))) := by
  refine (sound_pair readsRel (sound_opt readsRel (sound_terminated readsRel (sound_tag readsRel "^") sound_ws))
    (sound_preceded readsRel (sound_tag readsRel "=>") (sound_preceded readsRel sound_ws (sound_ty ht)))).imp ?_
  rintro s ⟨o, t⟩ ⟨s1, s2, rfl, ho, s3, s4, -, rfl, ⟨rfl, -⟩, w, s', -, rfl, hw, h⟩
  refine ⟨s1, w, s', by simp, hw, h, ?_⟩
  rcases ho with ho | ⟨a, ho, s5, v, -, rfl, ⟨rfl, -⟩, hv⟩
  · exact .inl ho
  · exact .inr ⟨by dsimp only at ho ⊢; rw [ho]; rfl, v, rfl, hv⟩

theorem sound_grpentMember (ht : ParsesTo Reads n r.type2 (GTy2 x false)) :
    ParsesTo Reads n (grpentMember r) (GVal x false) := fun i hl => by
  refine (sound_terminated readsRel (sound_type1 ht) sound_ws i hl).bind readsRel fun i' s first h1 h2 => ?_
  obtain ⟨k, w, -, rfl, hk, hw⟩ := h2
  have hl' : i'.length ≤ n := Nat.le_trans (readsRel.le h1) hl
  have hrest : (memberRest r first i').Good Reads (fun s' b => GVal x false (k ++ w ++ s') b) i' := by
    unfold memberRest
    refine ifOk_good (sound_arrowTail ht i' hl') (fun r' s' p _ h3 => PR.Good.ret readsRel ?_)
      (ifOk_good (sound_many0 readsRel (sound_preceded readsRel sound_slash (sound_type1 ht)) ?_ i' hl')
        (fun r' s' ts _ h3 => PR.Good.ret readsRel ?_) trivial)
    · obtain ⟨c, w', s'', rfl, hw', h4, ⟨h5, rfl⟩ | ⟨h5, v, rfl, hv⟩⟩ := h3
      · have := GVal.type1 hk hw hw' h4
        rw [h5]
        simpa using this
      · have := GVal.cut hk hw hv hw' h4
        rw [h5]
        simpa using this
    · rintro s a ⟨s1, s2, -, rfl, ⟨w, w', rfl, -⟩, -⟩
      simp
    · cases h3 with
      | nil => rw [List.append_nil, List.append_nil]; exact .member (.one hk) hw (by simp)
      | @cons s a t as h4 h5 =>
        obtain ⟨s1, s2, -, rfl, ⟨w1, w2, rfl, hw1, hw2⟩, h6⟩ := h4
        have htail : ∀ {t as}, Star (fun s b => ∃ s1 s2, ∃ _a : List Char, s = s1 ++ s2 ∧ (∃ w w', s1 = w ++ ('/' :: w') ∧ WS w ∧ WS w') ∧
            GTy1 x false s2 b) t as →
            SepTail (fun s (_ : Unit) => ∃ w w', s = w ++ ('/' :: w') ∧ WS w ∧ WS w') (GTy1 x false) t as := by
          intro t as h
          induction h with
          | nil => exact .nil
          | cons h _ ih =>
            obtain ⟨s1, s2, -, rfl, h1, h2⟩ := h
            rw [List.append_assoc]
            exact .cons (b := ()) h1 h2 ih
        have := GVal.member (GTy.cons hk (hw.append hw1) hw2 (GTy.ofSep (fun c b h => h) h6 (htail h5))) .nil (by simp)
        simpa using this
  have htail : ((∃ v, first = .simple (.value v)) ∨ ∃ n a, first = .simple (.typename n a)) →
      (ifOk (memberkeyTail r i') (fun i'' t => assembleBasicMember first t i'') (memberRest r first i')).Good Reads
        (fun s' b => GVal x false (k ++ w ++ s') b) i' := by
    intro hf
    refine ifOk_good (sound_memberkeyTail ht i' hl') (fun r' s' t _ h3 => ?_) hrest
    obtain ⟨w', s'', rfl, hw', h4⟩ := h3
    rcases hf with ⟨v, rfl⟩ | ⟨m, a, rfl⟩
    · cases hk with
      | simple hk =>
        cases hk with
        | value hv =>
          refine PR.Good.ret readsRel ?_
          have := GVal.value hv hw hw' h4
          simpa using this
    · cases hk with
      | simple hk =>
        cases hk with
        | name hn =>
          cases hn with
          | plain hi =>
            refine PR.Good.ret readsRel ?_
            have := GVal.bareword hi hw hw' h4
            simpa using this
          | generic _ _ ha =>
            unfold assembleBasicMember
            cases ha <;> trivial
  split
  · exact htail (.inl ⟨_, rfl⟩)
  · exact htail (.inr ⟨_, _, rfl⟩)
  · exact hrest

theorem sound_inParens (hr : ∀ m, m < n → ParsesTo Reads m r.group (GGroup x false)) :
    ParsesTo Reads n (inParens r) (fun s g => ∃ w s' w', s = '(' :: (w ++ s' ++ w') ++ [')'] ∧ WS w ∧
      GGroup x false s' g ∧ WS w') := sound_inBrackets hr

theorem sound_grpentVal (hr : RecSound x n r) : ParsesTo Reads n (grpentVal r) (GVal x false) := by
  refine sound_alt (sound_grpentMember hr.type2) (sound_alt (sound_pmap (sound_ident.exact readsRel) ?_)
    (sound_pmap (sound_inParens hr.group) ?_))
  · rintro s a ⟨rfl, h⟩; exact .groupname h rfl
  · rintro s a ⟨w, s', w', rfl, hw, h, hw'⟩; exact .parens hw h hw' (by simp)

theorem sound_grpent (hr : RecSound x n r) : ParsesTo Reads n (grpent r) (GEntry x false) := by
  refine sound_pmap (sound_pair readsRel (sound_opt readsRel (sound_terminated readsRel
    (sound_occur.exact readsRel) sound_ws)) (sound_grpentVal hr)) ?_
  rintro s ⟨o, v⟩ ⟨s1, s2, rfl, ho, hv⟩
  rcases ho with ⟨h, rfl⟩ | ⟨o', h, s3, w, -, rfl, ho, hw⟩
  · dsimp only at h; subst h; exact .plain hv
  · dsimp only at h; subst h; exact .occur ho hw hv (by simp)

theorem sound_grpchoice (hr : RecSound x n r) : ParsesTo Reads n (grpchoice r) (GChoice x false) := by
  refine (sound_many0 readsRel (sound_terminated readsRel (sound_grpent hr) sound_optcom) ?_).imp ?_
  · rintro s a ⟨s1, s2, -, rfl, h, -⟩; simp [h.ne]
  · intro s as h
    induction h with
    | nil => exact .nil
    | @cons s a t as h _ ih =>
      obtain ⟨s1, s2, -, rfl, h1, h2⟩ := h
      obtain ⟨o, v⟩ := a
      exact .cons h1 h2 ih (by simp)

theorem sound_group (hr : RecSound x n r) : ParsesTo Reads n (group r) (GGroup x false) := by
  have hs : ParsesTo Reads n (delimited ws (tag "//") ws) (fun s _ => ∃ w w', s = w ++ ('/' :: '/' :: w') ∧ WS w ∧ WS w') := by
    refine (sound_preceded readsRel sound_ws (sound_terminated readsRel (sound_tag readsRel "//") sound_ws)).imp ?_
    rintro s a ⟨w, s2, -, rfl, hw, s3, w', -, rfl, ⟨rfl, -⟩, hw'⟩
    exact ⟨w, w', rfl, hw, hw'⟩
  refine sound_pmap (sound_pair readsRel (sound_grpchoice hr) (sound_many0 readsRel
    (sound_preceded readsRel hs (sound_grpchoice hr)) ?_)) ?_
  · rintro s a ⟨s1, s2, -, rfl, ⟨w, w', rfl, -⟩, -⟩; simp
  · rintro s ⟨g, gs⟩ ⟨s1, s2, rfl, hg, hgs⟩
    dsimp only at hg hgs ⊢
    induction hgs generalizing s1 g with
    | nil => rw [List.append_nil]; exact .one hg
    | cons h _ ih =>
      obtain ⟨s3, s4, -, rfl, ⟨w, w', rfl, hw, hw'⟩, h4⟩ := h
      have := GGroup.cons hg hw hw' (ih _ _ h4)
      simpa using this

theorem sound_type2 (ht : ∀ m, m < n → ParsesTo Reads m r.type2 (GTy2 x false))
    (hg : ∀ m, m < n → ParsesTo Reads m r.group (GGroup x false)) : ParsesTo Reads n (type2 x r) (GTy2 x false) := by
  have hpre : ∀ {α : Type} {p : P α} {G : List Char → α → Prop} (c : String), ParsesTo Reads n p G →
      ParsesTo Reads n (preceded (tag c) (preceded ws p)) (fun s a => ∃ w s', s = c.toList ++ (w ++ s') ∧ WS w ∧ G s' a) := by
    intro α p G c hp
    refine (sound_preceded readsRel (sound_tag readsRel c) (sound_preceded readsRel sound_ws hp)).imp ?_
    rintro s a ⟨s1, s2, -, rfl, ⟨rfl, -⟩, w, s', -, rfl, hw, h⟩
    exact ⟨w, s', rfl, hw, h⟩
  refine sound_alt (sound_pmap ((sound_value x).exact readsRel) fun s a h => .value h) <|
    sound_alt (sound_pmap (sound_nameGeneric ht) fun s a h => .name h) <|
    sound_alt (sound_pmap (sound_inBrackets fun m hm => sound_ty (ht m hm)) ?_) <|
    sound_alt (sound_pmap (sound_inBrackets hg) ?_) <|
    sound_alt (sound_pmap (sound_inBrackets hg) ?_) <|
    sound_alt (sound_pmap (hpre "~" (sound_nameGeneric ht)) ?_) <|
    sound_alt (sound_pmap (hpre "&" (sound_inParens hg)) ?_)
      (sound_pmap (hpre "&" (sound_nameGeneric ht)) ?_)
  · rintro s a ⟨w, s', w', rfl, hw, h, hw'⟩; exact .parens hw h hw'
  · rintro s a ⟨w, s', w', rfl, hw, h, hw'⟩; exact .map hw h hw'
  · rintro s a ⟨w, s', w', rfl, hw, h, hw'⟩; exact .array hw h hw'
  · rintro s a ⟨w, s', rfl, hw, h⟩; exact GTy2.unwrap (w := w) hw h
  · rintro s a ⟨v, s1, rfl, hv, w, s', w', rfl, hw, h, hw'⟩; exact .inline hv hw h hw'
  · rintro s a ⟨w, s', rfl, hw, h⟩; exact GTy2.choiceify (w := w) hw h

theorem sound_parsers (k : Nat) : (∀ n, 2 * n + 1 ≤ k → ParsesTo Reads n (parsers x k).type2 (GTy2 x false)) ∧
    ∀ n, 2 * n + 2 ≤ k → ParsesTo Reads n (parsers x k).group (GGroup x false) := by
  induction k with
  | zero => exact ⟨fun n h => by omega, fun n h => by omega⟩
  | succ k ih =>
    refine ⟨fun n h => ?_, fun n h => ?_⟩
    · exact sound_type2 (fun m hm => ih.1 m (by omega)) fun m hm => ih.2 m (by omega)
    · exact sound_group ⟨ih.1 n (by omega), fun m hm => ih.2 m (by omega)⟩

theorem parserRec_type2 (i : List Char) : (parserRec x).type2 i = (parsers x (2 * i.length + 2)).type2 i := by
  rw [parserRec]

theorem parserRec_group (i : List Char) : (parserRec x).group i = (parsers x (2 * i.length + 2)).group i := by
  rw [parserRec]

theorem sound_parserRec (n : Nat) : RecSound x n (parserRec x) := by
  refine ⟨fun i _ => ?_, fun _ _ i _ => ?_⟩
  · rw [parserRec_type2]
    generalize hk : 2 * i.length + 2 = k
    exact (sound_parsers k).1 i.length (by omega) i (Nat.le_refl _)
  · rw [parserRec_group]
    generalize hk : 2 * i.length + 2 = k
    exact (sound_parsers k).2 i.length (by omega) i (Nat.le_refl _)

/-! ## Rules -/

theorem sound_ruleVal : ParsesTo Reads n (ruleVal x) (fun s v => ∃ w s', s = '=' :: w ++ s' ∧ WS w ∧ GRuleVal x false s' v) := by
  have hr := sound_parserRec (x := x) n
  refine (sound_preceded readsRel (sound_tag readsRel "=") (sound_preceded readsRel sound_ws
    (sound_alt (G := GRuleVal x false) (sound_pmap (sound_ty hr.type2) fun s a h => .type h)
      (sound_pmap (sound_grpent hr) fun s a h => .group h (by simp))))).imp ?_
  rintro s a ⟨s1, s2, -, rfl, ⟨rfl, -⟩, w, s', -, rfl, hw, h⟩
  exact ⟨w, s', rfl, hw, h⟩

theorem sound_genericParm : ParsesTo Reads n genericParm (fun s as => ∃ w a, s = '<' :: w ++ (a ++ ['>']) ∧ WS w ∧
    GParams a (as.map String.ofList)) := by
  refine (sound_preceded readsRel (sound_pair readsRel (sound_tag readsRel "<") sound_ws)
    (sound_terminated readsRel (sound_sepList1 readsRel (sound_pair readsRel (sound_tag readsRel ",") sound_ws)
      (by rintro s a ⟨s1, s2, rfl, ⟨rfl, -⟩, -⟩; simp)
      (sound_terminated readsRel (sound_ident.exact readsRel) sound_ws)) (sound_tag readsRel ">"))).imp ?_
  rintro s as ⟨s1, s2, -, rfl, ⟨s0, w, rfl, ⟨rfl, -⟩, hw⟩, s3, s4, -, rfl, ⟨s5, a, s6, bs, rfl, rfl, h5, h6⟩, rfl, -⟩
  refine ⟨w, s5 ++ s6, by simp, hw, ?_⟩
  clear hw
  induction h6 generalizing s5 a with
  | nil =>
    obtain ⟨s7, w', -, rfl, ⟨rfl, h7⟩, hw'⟩ := h5
    rw [List.append_nil]; exact .one h7 hw'
  | cons hc h8 _ ih =>
    obtain ⟨s7, w1, -, rfl, ⟨rfl, h7⟩, hw1⟩ := h5
    obtain ⟨s9, w2, rfl, ⟨rfl, -⟩, hw2⟩ := hc
    have := GParams.cons h7 hw1 hw2 (ih _ _ h8)
    simpa using this

theorem sound_rule : ParsesTo Reads n (rule x) (GRule x false) := by
  refine sound_pmap (sound_pair readsRel (sound_pair readsRel (sound_ident.exact readsRel)
    (sound_opt readsRel sound_genericParm)) (sound_preceded readsRel sound_ws sound_ruleVal)) ?_
  rintro s ⟨⟨a, o⟩, v⟩ ⟨s1, s2, rfl, ⟨s3, s4, rfl, ⟨h3, hi⟩, ho⟩, w, s5, -, rfl, hw, w', s', rfl, hw', h⟩
  dsimp only at h3 ho h ⊢
  subst h3
  have hp : GOptParams s4 ((o.getD []).map String.ofList) := by
    rcases ho with ⟨rfl, rfl⟩ | ⟨as, rfl, w1, b, rfl, hw1, hb⟩
    · exact .none
    · exact .some hw1 hb
  have := GRule.mk hi hp hw hw' h
  simpa using this

theorem GRules.ofStar {α : Type} {f : α → Ast.Rule} {H : List Char → α → Prop}
    (hH : ∀ s a, H s a → ∃ s1 w, s = s1 ++ w ∧ GRule x false s1 (f a) ∧ WS w) {s t : List Char} {a : α} {as : List α}
    (h : H s a) (hs : Star H t as) : GRules x false (s ++ t) ((a :: as).map f) := by
  induction hs generalizing s a with
  | nil =>
    obtain ⟨s1, w, rfl, h1, hw⟩ := hH _ _ h
    rw [List.append_nil]; exact .one h1 hw (by simp)
  | cons h2 _ ih =>
    obtain ⟨s1, w, rfl, h1, hw⟩ := hH _ _ h
    exact .cons h1 hw (ih h2) (by simp)

theorem sound_cddl : ParsesTo Reads n (cddl x) (GCddl x false) := by
  refine (sound_preceded readsRel sound_ws (sound_many1 readsRel
    (sound_terminated readsRel sound_rule sound_ws) ?_)).imp ?_
  · rintro s a ⟨s1, s2, -, rfl, h, -⟩; simp [h.ne]
  · rintro s as ⟨w, s2, -, rfl, hw, s3, a, s4, bs, rfl, rfl, h3, h4⟩
    have := GRules.ofStar (f := id) (fun s a h => by
      obtain ⟨s1, s2, -, rfl, h1, h2⟩ := h; exact ⟨s1, s2, rfl, h1, h2⟩) h3 h4
    rw [List.map_id] at this
    exact .mk hw this

end Cddl
