import Verif.Proofs.ParseRun

/-!
# The parser reads every layout: groups and whole texts
-/

namespace Cddl

open Ast (Ty Ty1 Ty2 MemberKeyVal GrpEntVal GrpEnt Group GrpChoice RuleVal)

variable {x : ParseExt} {r : PRec} {n : Nat}

/-! ## Entries -/

/-- What may stand behind a group entry. -/
def EntFollow (rest : List Char) : Prop :=
  NotHead (fun c => c ∈ ".:^=".toList) (trim rest) ∧
    (NotHead (fun c => c = '/') (trim rest) ∨ ∃ u, trim rest = '/' :: '/' :: u)

theorem EntFollow.ty {rest : List Char} (h : EntFollow rest) : TyFollow rest :=
  ⟨h.1.imp fun c hc => by subst hc; decide, h.2⟩

/-- The rest is the same up to leading white space. -/
structure Same (rest rest' : List Char) : Prop where
  trim : trim rest' = trim rest
  len : rest'.length ≤ rest.length

theorem Same.refl (i : List Char) : Same i i := ⟨rfl, Nat.le_refl _⟩

theorem trim_trim (i : List Char) : trim (trim i) = trim i := by
  obtain ⟨u, as, h⟩ := wsTo_total i
  obtain ⟨t, h'⟩ := WsTo.ws ⟨as, h⟩
  rw [trim_of_ws h']
  have hstop : ∀ {i as u}, Many (alt multispace1 comment) i as u → Many (alt multispace1 comment) u [] u := by
    intro i as u h
    induction h with
    | stop h => exact .stop h
    | step _ _ _ ih => exact ih
  obtain ⟨t, h'⟩ := WsTo.ws ⟨[], hstop h⟩
  exact trim_of_ws h'

theorem same_trim (i : List Char) : Same i (trim i) := ⟨trim_trim i, trim_length i⟩

theorem memberkeyTail_none {i : List Char} (h : NotHead (fun c => c = ':') i) : ∃ e, memberkeyTail r i = .err e := by
  obtain ⟨e, h⟩ : ∃ e, tag ":" i = .err e := tag_err (by rintro r rfl; exact h rfl)
  exact ⟨e, by simp only [memberkeyTail, preceded, pair, h, PR.bind]⟩

/-- Without a colon the key, if any, is a type. -/
theorem member_noColon {i i' : List Char} {first : Ty1} (h : terminated (type1 r) ws i = .ok i' first)
    (hc : NotHead (fun c => c = ':') i') : grpentMember r i = memberRest r first i' := by
  obtain ⟨e, h'⟩ := memberkeyTail_none (r := r) hc
  unfold grpentMember
  simp only [h, PR.bind]
  split
  · simp only [h', ifOk]
  · simp only [h', ifOk]
  · rfl

theorem term_type1 (hc : Comp x r n) {s t rest} (hs : s.length ≤ n) (h : GTy1 x true s t) (hr : AfterTy1 t rest)
    (hd : NotHead (fun c => c = '.') (trim rest)) : terminated (type1 r) ws (s ++ rest) = .ok (trim rest) t := by
  obtain ⟨t', h2⟩ := ws_trim rest
  simp only [terminated, type1_run hc hs h hr hd, h2, PR.bind]

theorem trim_punct {w : List Char} (hw : WS w) {c : Char} (hc : c ∈ "./,)]}:^=>*+?(){}[]~&".toList) (u : List Char) :
    trim (w ++ c :: u) = c :: u := by
  rw [trim_ws hw, trim_noWs (noWs_punct hc u)]

theorem val_run (hr2 : r.type2 = type2 x r) (hc : Comp x r n) (hg : ∀ {s g w w' rest}, s.length + 2 ≤ n → WS w → GGroup x true s g → WS w' →
      inParens r ('(' :: (w ++ s ++ w') ++ [')'] ++ rest) = .ok rest g)
    {s v rest} (hs : s.length ≤ n) (h : GVal x true s v) (ha : AfterVal v rest) (hf : EntFollow rest) :
    ∃ rest', grpentVal r (s ++ rest) = .ok rest' v ∧ Same rest rest' := by
  have hmem : ∀ {i rest' v}, grpentMember r i = .ok rest' v → grpentVal r i = .ok rest' v := by
    intro i rest' v h
    simp only [grpentVal, alt, h]
  cases h with
  | @bareword k w w' s t h hw hw' h' =>
    refine ⟨rest, ?_, Same.refl _⟩
    have e1 : k ++ w ++ (':' :: w') ++ s ++ rest = k ++ (w ++ ':' :: (w' ++ (s ++ rest))) := by simp
    rw [e1]
    have et := trim_punct hw (c := ':') (by decide) (w' ++ (s ++ rest))
    have h1 := term_type1 (rest := w ++ ':' :: (w' ++ (s ++ rest))) hc (s := k) (t := .simple (.typename (String.ofList k) []))
      (by simp at hs; omega) (.simple (.name (.plain h))) ((safe_ws hw (safe_punct (by decide) _)).ty1 _)
      (by rw [et]; simp [NotHead])
    rw [et] at h1
    have h2 : tag ":" (':' :: (w' ++ (s ++ rest))) = .ok (w' ++ (s ++ rest)) [':'] := tag_ok ":" [':'] _ rfl
    obtain ⟨t3, h3⟩ := ws_trim (w' ++ (s ++ rest))
    rw [trim_ws hw', (h'.starts.app rest).trim] at h3
    have h4 := ty_run hr2 hc (by simp at hs; omega) h' ha hf.ty
    refine hmem ?_
    unfold grpentMember
    simp only [h1, PR.bind, memberkeyTail, preceded, pair, h2, h3, h4, ifOk, assembleBasicMember, List.isEmpty_nil, if_true]
  | @value k v w w' s t h hw hw' h' =>
    refine ⟨rest, ?_, Same.refl _⟩
    have e1 : k ++ w ++ (':' :: w') ++ s ++ rest = k ++ (w ++ ':' :: (w' ++ (s ++ rest))) := by simp
    rw [e1]
    have et := trim_punct hw (c := ':') (by decide) (w' ++ (s ++ rest))
    have h1 := term_type1 (rest := w ++ ':' :: (w' ++ (s ++ rest))) hc (s := k) (t := .simple (.value v))
      (by simp at hs; omega) (.simple (.value h)) ((safe_ws hw (safe_punct (by decide) _)).ty1 _)
      (by rw [et]; simp [NotHead])
    rw [et] at h1
    have h2 : tag ":" (':' :: (w' ++ (s ++ rest))) = .ok (w' ++ (s ++ rest)) [':'] := tag_ok ":" [':'] _ rfl
    obtain ⟨t3, h3⟩ := ws_trim (w' ++ (s ++ rest))
    rw [trim_ws hw', (h'.starts.app rest).trim] at h3
    have h4 := ty_run hr2 hc (by simp at hs; omega) h' ha hf.ty
    refine hmem ?_
    unfold grpentMember
    simp only [h1, PR.bind, memberkeyTail, preceded, pair, h2, h3, h4, ifOk, assembleBasicMember]
  | @type1 k u w w' s t h hw hw' h' =>
    refine ⟨rest, ?_, Same.refl _⟩
    have e1 : k ++ w ++ ('=' :: '>' :: w') ++ s ++ rest = k ++ (w ++ '=' :: ('>' :: (w' ++ (s ++ rest)))) := by simp
    rw [e1]
    have et := trim_punct hw (c := '=') (by decide) ('>' :: (w' ++ (s ++ rest)))
    have h1 := term_type1 (rest := w ++ '=' :: ('>' :: (w' ++ (s ++ rest)))) hc (by simp at hs; omega) h
      ((safe_ws hw (safe_punct (by decide) _)).ty1 _) (by rw [et]; simp [NotHead])
    rw [et] at h1
    have h2 : tag "=>" ('=' :: '>' :: (w' ++ (s ++ rest))) = .ok (w' ++ (s ++ rest)) ['=', '>'] :=
      tag_ok "=>" ['=', '>'] _ rfl
    obtain ⟨e5, h5⟩ : ∃ e, tag "^" ('=' :: '>' :: (w' ++ (s ++ rest))) = .err e := tag_err (by intro r e; simp at e)
    obtain ⟨t3, h3⟩ := ws_trim (w' ++ (s ++ rest))
    rw [trim_ws hw', (h'.starts.app rest).trim] at h3
    have h4 := ty_run hr2 hc (by simp at hs; omega) h' ha hf.ty
    refine hmem ?_
    rw [member_noColon h1 (by simp [NotHead])]
    simp only [memberRest, arrowTail, pair, opt, terminated, preceded, h5, h2, h3, h4, PR.bind, ifOk, Option.isSome_none]
  | @cut k u w v w' s t h hw hv hw' h' =>
    refine ⟨rest, ?_, Same.refl _⟩
    have e1 : k ++ w ++ ('^' :: v) ++ ('=' :: '>' :: w') ++ s ++ rest =
        k ++ (w ++ '^' :: (v ++ '=' :: ('>' :: (w' ++ (s ++ rest))))) := by simp
    rw [e1]
    have et := trim_punct hw (c := '^') (by decide) (v ++ '=' :: ('>' :: (w' ++ (s ++ rest))))
    have h1 := term_type1 (rest := w ++ '^' :: (v ++ '=' :: ('>' :: (w' ++ (s ++ rest))))) hc (by simp at hs; omega) h
      ((safe_ws hw (safe_punct (by decide) _)).ty1 _) (by rw [et]; simp [NotHead])
    rw [et] at h1
    have h5 : tag "^" ('^' :: (v ++ '=' :: ('>' :: (w' ++ (s ++ rest))))) = .ok (v ++ '=' :: ('>' :: (w' ++ (s ++ rest)))) ['^'] :=
      tag_ok "^" ['^'] _ rfl
    obtain ⟨t6, h6⟩ := ws_trim (v ++ '=' :: ('>' :: (w' ++ (s ++ rest))))
    rw [trim_punct hv (by decide)] at h6
    have h2 : tag "=>" ('=' :: '>' :: (w' ++ (s ++ rest))) = .ok (w' ++ (s ++ rest)) ['=', '>'] :=
      tag_ok "=>" ['=', '>'] _ rfl
    obtain ⟨t3, h3⟩ := ws_trim (w' ++ (s ++ rest))
    rw [trim_ws hw', (h'.starts.app rest).trim] at h3
    have h4 := ty_run hr2 hc (by simp at hs; omega) h' ha hf.ty
    refine hmem ?_
    rw [member_noColon h1 (by simp [NotHead])]
    simp only [memberRest, arrowTail, pair, opt, terminated, preceded, h5, h6, h2, h3, h4, PR.bind, ifOk, Option.isSome_some]
  | @member s t w h hw hst =>
    obtain rfl := hst rfl
    rw [List.append_nil]
    obtain ⟨t1, ts, r1, hrun⟩ := ty_parts hr2 hc _ (Nat.le_refl _) (by simpa using hs) h ha hf.ty
    obtain ⟨t', h2⟩ := ws_trim r1
    have h1 : terminated (type1 r) ws (s ++ rest) = .ok (trim r1) t1 := by
      simp only [terminated, hrun.first, h2, PR.bind]
    have hnot : NotHead (fun c => c ∈ ".:^=".toList) (trim r1) := by
      rcases hrun.last with ⟨-, rfl⟩ | ⟨-, u, hu⟩
      · exact hf.1
      · rw [hu]; exact notHead_cons (by decide) _
    have hl : rest.length ≤ (trim r1).length ∨ ts = [] := by
      rcases hrun.last with ⟨h, -⟩ | ⟨hne, u, hu⟩
      · exact .inr h
      · left
        have hse := hrun.seps
        cases hse with
        | stop _ => exact absurd rfl hne
        | stop' _ _ _ => exact absurd rfl hne
        | step h5 _ h6 h7 h8 =>
          have h9 := slash_run hu
          rw [h5] at h9
          cases h9
          have hlen : ∀ {i as r'}, Seps slash (type1 r) i as r' → r'.length ≤ i.length := by
            intro i as r' h
            induction h with
            | stop _ => exact Nat.le_refl _
            | stop' _ _ _ => exact Nat.le_refl _
            | step _ _ _ _ _ _ => omega
          have := hlen h8
          have := trim_length u
          rw [hu]
          simp
          omega
    have hmany : ∃ r', Many (preceded slash (type1 r)) (trim r1) ts r' ∧ Same rest r' := by
      rcases hl with hl | hl
      · obtain ⟨r', hm, hr'⟩ := hrun.many (trim r1) (trim_trim r1) hl
        refine ⟨r', hm, ?_⟩
        rcases hr' with ⟨h, rfl⟩ | ⟨h, rfl⟩
        · rcases hrun.last with ⟨-, rfl⟩ | ⟨h', -⟩
          · exact same_trim _
          · exact absurd h h'
        · exact Same.refl _
      · subst hl
        rcases hrun.last with ⟨-, rfl⟩ | ⟨h', -⟩
        · exact ⟨trim r1, (slash_stop hr2 (by rw [trim_trim]; exact hf.2)).2, same_trim _⟩
        · exact absurd rfl h'
    obtain ⟨r', hm, hsame⟩ := hmany
    refine ⟨r', hmem ?_, hsame⟩
    rw [member_noColon h1 (hnot.imp fun c hc => by subst hc; decide)]
    obtain ⟨e5, h5⟩ : ∃ e, tag "^" (trim r1) = .err e := tag_err (by
      intro q e; rw [e] at hnot; exact hnot (by decide))
    obtain ⟨e6, h6⟩ : ∃ e, tag "=>" (trim r1) = .err e := tag_err (by
      intro q e; rw [e] at hnot; exact hnot (by decide))
    simp only [memberRest, arrowTail, pair, opt, terminated, preceded, h5, h6, PR.bind, ifOk]
    have := hm.many0
    rw [this, hrun.eq]
  | groupname _ h => cases h
  | @parens w s g w' hw h hw' hnt =>
    refine ⟨rest, ?_, Same.refl _⟩
    obtain ⟨e1, h1⟩ := hc.np rest hs (GVal.parens (strict := true) hw h hw' hnt)
    have h2 := grpentMember_err h1
    have h3 := hg (rest := rest) (by simp at hs; omega) hw h hw'
    obtain ⟨e4, h4⟩ := ident_err (i := '(' :: (w ++ s ++ w') ++ [')'] ++ rest) (by
      simp only [List.cons_append]; exact notHead_cons (by unfold EAlpha; decide) _)
    simp only [grpentVal, alt, h2, pmap, h3, h4, PR.bind]
  | @comma w s t v v' w' hw h hv hv' hw' =>
    refine ⟨rest, ?_, Same.refl _⟩
    obtain ⟨e1, h1⟩ := hc.np rest hs (GVal.comma (strict := true) hw h hv hv' hw')
    have h2 := grpentMember_err h1
    have hgr : GGroup x true (s ++ (v ++ ',' :: v')) [[.mk none (.member t)]] := by
      have := GGroup.one (.cons (.plain (.member (strict := true) h .nil fun _ => rfl)) (.some hv hv') .nil (by simp))
      simpa using this
    have h3 := hg (rest := rest) (by simp at hs ⊢; omega) hw hgr hw'
    obtain ⟨e4, h4⟩ := ident_err (i := '(' :: (w ++ (s ++ (v ++ ',' :: v')) ++ w') ++ [')'] ++ rest) (by
      simp only [List.cons_append]; exact notHead_cons (by unfold EAlpha; decide) _)
    simp only [grpentVal, alt, h2, pmap, h3, h4, PR.bind]

theorem entry_run (hr2 : r.type2 = type2 x r) (hc : Comp x r n) (hg : ∀ {s g w w' rest}, s.length + 2 ≤ n → WS w → GGroup x true s g → WS w' →
      inParens r ('(' :: (w ++ s ++ w') ++ [')'] ++ rest) = .ok rest g)
    {s o v rest} (hs : s.length ≤ n) (h : GEntry x true s (.mk o v)) (ha : AfterVal v rest) (hf : EntFollow rest) :
    ∃ rest', grpent r (s ++ rest) = .ok rest' (.mk o v) ∧ Same rest rest' := by
  cases h with
  | plain h =>
    obtain ⟨rest', h1, h2⟩ := val_run hr2 hc hg hs h ha hf
    exact ⟨rest', by simp only [grpent, pmap, pair, occur_none (h.noOccur ha), h1, PR.bind], h2⟩
  | @occur s o w s' v h hw h' hao =>
    obtain ⟨rest', h1, h2⟩ := val_run hr2 hc hg (by simp at hs; omega) h' ha hf
    refine ⟨rest', ?_, h2⟩
    have h3 := occur_run (r := w ++ (s' ++ rest)) h (by
      rw [← List.append_assoc]
      exact (hao rfl).ext (by simp [h'.ne]))
    obtain ⟨t4, h4⟩ := ws_trim (w ++ (s' ++ rest))
    rw [trim_ws hw, (h'.starts.app rest).trim] at h4
    have e1 : s ++ w ++ s' ++ rest = s ++ (w ++ (s' ++ rest)) := by simp
    rw [e1]
    simp only [grpent, pmap, pair, opt, terminated, h3, h4, h1, PR.bind]

/-! ## Groups -/

/-- What may stand behind a group choice. -/
def ChoiceFollow (rest : List Char) : Prop :=
  (∃ c u, trim rest = c :: u ∧ c ∈ ")]}".toList) ∨ ∃ u, trim rest = '/' :: '/' :: u

theorem ChoiceFollow.head {rest : List Char} (h : ChoiceFollow rest) : ∃ c u, trim rest = c :: u ∧ c ∈ "/)]}".toList := by
  rcases h with ⟨c, u, h, hc⟩ | ⟨u, h⟩
  · exact ⟨c, u, h, by simp at hc ⊢; exact .inr hc⟩
  · exact ⟨'/', '/' :: u, h, by decide⟩

theorem ChoiceFollow.safe {rest : List Char} (h : ChoiceFollow rest) : Safe rest := by
  obtain ⟨c, u, h, hc⟩ := h.head
  refine safe_of_trim h (safe_punct ?_ [])
  have key : ∀ c ∈ "/)]}".toList, c ∈ "/,)]}:^=>".toList := by decide
  exact key c hc

theorem ChoiceFollow.ent {rest : List Char} (h : ChoiceFollow rest) : EntFollow rest := by
  refine ⟨?_, ?_⟩
  · obtain ⟨c, u, h, hc⟩ := h.head
    rw [h]
    have key : ∀ c ∈ "/)]}".toList, ¬ c ∈ ".:^=".toList := by decide
    exact key c hc
  · rcases h with ⟨c, u, h, hc⟩ | h
    · left
      rw [h]
      have key : ∀ c ∈ ")]}".toList, ¬ c = '/' := by decide
      exact key c hc
    · exact .inr h

theorem grpent_stop (hr2 : r.type2 = type2 x r) {rest : List Char} (h : ChoiceFollow rest) : ∃ e, grpent r (trim rest) = .err e := by
  obtain ⟨c, u, h, hc⟩ := h.head
  rw [h]
  have hk : ∀ c ∈ "/)]}".toList, c ∈ "./,)]}:^=>*+?".toList ∧ ¬ (Digit c ∨ c = '*' ∨ c = '+' ∨ c = '?') ∧ ¬ EAlpha c ∧ c ≠ '(' := by
    unfold Digit EAlpha; decide
  obtain ⟨k1, k2, k3, k4⟩ := hk c hc
  obtain ⟨e1, h1⟩ := type2_err (x := x) (r := r) (punct_notTypeHead k1 u)
  rw [← hr2] at h1
  obtain ⟨e2, h2⟩ := ident_err (i := c :: u) k3
  obtain ⟨e3, h3⟩ := inParens_err (r := r) (i := c :: u) k4
  exact ⟨e3, by
    simp only [grpent, pmap, pair, occur_none (i := c :: u) (.inl k2), grpentVal, alt, grpentMember_err h1, h2, h3, PR.bind]⟩

theorem trim_starts_or {st s es} (h : GChoice x st s es) : (s = [] ∧ es = []) ∨ (Starts s ∧ es ≠ []) := by
  cases h with
  | nil => exact .inl ⟨rfl, rfl⟩
  | cons h _ _ _ => exact .inr ⟨(h.starts.app _).app _, by simp⟩

/-- What stands behind an entry inside a group. -/
theorem entry_follow {s' es rest c} (h : GChoice x true s' es) (hf : ChoiceFollow rest) (hc : OptComma c) :
    EntFollow (c ++ (s' ++ rest)) := by
  cases hc with
  | none hw =>
    unfold EntFollow
    rw [trim_ws hw]
    rcases trim_starts_or h with ⟨rfl, -⟩ | ⟨hs, -⟩
    · exact hf.ent
    · rw [(hs.app rest).trim]
      refine ⟨(hs.app rest).notHead ?_, .inl ((hs.app rest).notHead ?_)⟩
      · have key : ∀ c ∈ ".:^=".toList, ¬ Starter c := by decide
        exact key
      · rintro c rfl; decide
  | @some w w' hw hw' =>
    have e : trim (w ++ ',' :: w' ++ (s' ++ rest)) = ',' :: (w' ++ (s' ++ rest)) := by
      rw [List.append_assoc]
      exact trim_punct hw (by decide) _
    unfold EntFollow
    rw [e]
    exact ⟨notHead_cons (by decide) _, .inl (notHead_cons (by decide) _)⟩

theorem entry_after {s' es rest c s v} (hv : GVal x true s v) (h : GChoice x true s' es) (hf : ChoiceFollow rest) (hc : OptComma c)
    (ha : es ≠ [] → AfterVal v (c ++ s')) : AfterVal v (c ++ (s' ++ rest)) := by
  have hdot : ∀ {s : List Char}, Starts s → s ≠ ['.'] := by
    rintro s ⟨d, t, rfl, hd⟩ e
    simp at e
    rw [e.1] at hd
    exact absurd hd (by decide)
  have hbl : ∀ {w : List Char}, WS w → ∀ u, w ++ u = ['.'] → w = [] := by
    intro w hw u e
    rcases hw.head with h | ⟨d, t, rfl, hd⟩
    · exact h
    · simp at e
      rw [e.1] at hd
      exact absurd hd (by unfold Blank; decide)
  rcases trim_starts_or h with ⟨rfl, -⟩ | ⟨hs, hne⟩
  · refine Safe.val ?_ hv
    cases hc with
    | none hw => exact safe_ws hw hf.safe
    | some hw hw' =>
      rw [List.append_assoc]
      exact safe_ws hw (safe_punct (by decide) _)
  · rw [← List.append_assoc]
    refine (ha hne).ext (by simp [hs.ne]) ?_
    intro e
    cases hc with
    | none hw =>
      have := hbl hw _ e
      subst this
      exact hdot hs e
    | some hw hw' =>
      rw [List.append_assoc] at e
      have := hbl hw _ e
      subst this
      simp at e

theorem GEntry.val {s o v} (h : GEntry x true s (.mk o v)) : ∃ s', GVal x true s' v := by
  cases h with
  | plain h => exact ⟨_, h⟩
  | occur _ _ h _ => exact ⟨_, h⟩

theorem optcom_run {s' es rest c i} (h : GChoice x true s' es) (hf : ChoiceFollow rest) (hc : OptComma c)
    (hi : trim i = trim (c ++ (s' ++ rest))) : optcom i = .ok (trim (s' ++ rest)) () := by
  obtain ⟨t, h1⟩ := ws_trim i
  rw [hi] at h1
  cases hc with
  | none hw =>
    rw [trim_ws hw] at h1
    obtain ⟨e, h2⟩ : ∃ e, tag "," (trim (s' ++ rest)) = .err e := tag_err (by
      intro q e
      rcases trim_starts_or h with ⟨rfl, -⟩ | ⟨hs, -⟩
      · obtain ⟨c, u, h, hc⟩ := hf.head
        rw [List.nil_append, h] at e
        simp at e
        rw [e.1] at hc
        exact absurd hc (by decide)
      · rw [(hs.app rest).trim] at e
        obtain ⟨d, t, h, hd⟩ := hs.app rest
        rw [h] at e
        simp at e
        rw [e.1] at hd
        exact absurd hd (by decide))
    simp only [optcom, pmap, pair, opt, h1, h2, PR.bind]
  | @some w w' hw hw' =>
    rw [List.append_assoc, List.cons_append, trim_punct hw (by decide)] at h1
    have h2 : tag "," (',' :: (w' ++ (s' ++ rest))) = .ok (w' ++ (s' ++ rest)) [','] := tag_ok "," [','] _ rfl
    obtain ⟨t3, h3⟩ := ws_trim (w' ++ (s' ++ rest))
    rw [trim_ws hw'] at h3
    simp only [optcom, pmap, pair, opt, h1, h2, h3, PR.bind]

theorem choice_run (hr2 : r.type2 = type2 x r) (hc : Comp x r n) (hg : ∀ {s g w w' rest}, s.length + 2 ≤ n → WS w → GGroup x true s g → WS w' →
      inParens r ('(' :: (w ++ s ++ w') ++ [')'] ++ rest) = .ok rest g) :
    ∀ (k : Nat) {s es rest}, s.length ≤ k → s.length ≤ n → GChoice x true s es → ChoiceFollow rest →
      Many (terminated (grpent r) optcom) (trim (s ++ rest)) es (trim rest) := by
  intro k
  induction k with
  | zero =>
    intro s es rest hk _ h hf
    cases h with
    | nil =>
      obtain ⟨e, h1⟩ := grpent_stop hr2 hf
      exact .stop (e := e) (by simp only [List.nil_append, terminated, h1, PR.bind])
    | cons h _ _ _ => exact absurd (List.length_eq_zero_iff.1 (Nat.le_zero.1 hk)) (by simp [h.ne])
  | succ k ih =>
    intro s es rest hk hn h hf
    cases h with
    | nil =>
      obtain ⟨e, h1⟩ := grpent_stop hr2 hf
      exact .stop (e := e) (by simp only [List.nil_append, terminated, h1, PR.bind])
    | @cons s o v c s' es h hcm h' ha =>
      have hsl := List.length_pos_iff.2 h.ne
      obtain ⟨sv, hv⟩ := h.val
      obtain ⟨rest', h1, h2⟩ := entry_run (rest := c ++ (s' ++ rest)) hr2 hc hg (by simp at hn; omega) h
        (entry_after hv h' hf hcm (ha rfl)) (entry_follow h' hf hcm)
      have h3 := optcom_run h' hf hcm h2.trim
      have e1 : s ++ c ++ s' ++ rest = s ++ (c ++ (s' ++ rest)) := by simp
      rw [e1, (h.starts.app _).trim]
      refine .step (r := trim (s' ++ rest)) (by simp only [terminated, h1, h3, PR.bind]) ?_
        (ih (by simp at hk; omega) (by simp at hn; omega) h' hf)
      have := trim_length (s' ++ rest)
      simp at this ⊢
      omega

/-- The separator of group choices. -/
theorem dslash_run {i u : List Char} (h : trim i = '/' :: '/' :: u) :
    delimited ws (tag "//") ws i = .ok (trim u) ['/', '/'] := by
  obtain ⟨t, h1⟩ := ws_trim i
  rw [h] at h1
  obtain ⟨t', h2⟩ := ws_trim u
  have h3 : tag "//" ('/' :: '/' :: u) = .ok u ['/', '/'] := tag_ok "//" ['/', '/'] _ rfl
  simp only [delimited, preceded, terminated, h1, h2, h3, PR.bind]

theorem group_parts (hr2 : r.type2 = type2 x r) (hc : Comp x r n) (hg : ∀ {s g w w' rest}, s.length + 2 ≤ n → WS w → GGroup x true s g → WS w' →
      inParens r ('(' :: (w ++ s ++ w') ++ [')'] ++ rest) = .ok rest g) :
    ∀ (k : Nat) {s g rest}, s.length ≤ k → s.length ≤ n → GGroup x true s g → (∃ c u, trim rest = c :: u ∧ c ∈ ")]}".toList) →
      ∃ c cs r1, g = c :: cs ∧ grpchoice r (trim (s ++ rest)) = .ok r1 c ∧ r1.length ≤ (s ++ rest).length ∧
        Many (preceded (delimited ws (tag "//") ws) (grpchoice r)) r1 cs (trim rest) := by
  intro k
  have hone : ∀ {s g rest}, s.length ≤ n → GChoice x true s g → (∃ c u, trim rest = c :: u ∧ c ∈ ")]}".toList) →
      ∃ c cs r1, [g] = c :: cs ∧ grpchoice r (trim (s ++ rest)) = .ok r1 c ∧ r1.length ≤ (s ++ rest).length ∧
        Many (preceded (delimited ws (tag "//") ws) (grpchoice r)) r1 cs (trim rest) := by
    intro s g rest hn h hf
    have h1 := choice_run hr2 hc hg _ (Nat.le_refl _) hn h (.inl hf)
    refine ⟨g, [], trim rest, rfl, h1.many0, ?_, ?_⟩
    · have := trim_length rest
      simp
      omega
    · obtain ⟨c, u, h, hcm⟩ := hf
      obtain ⟨t, h2⟩ := ws_trim (trim rest)
      rw [trim_trim, h] at h2
      obtain ⟨e, h3⟩ : ∃ e, tag "//" (c :: u) = .err e := tag_err (by
        intro q e
        simp at e
        rw [e.1] at hcm
        exact absurd hcm (by decide))
      rw [h]
      exact .stop (e := e) (by simp only [preceded, delimited, terminated, h2, h3, PR.bind])
  induction k with
  | zero =>
    intro s g rest hk hn h hf
    cases h with
    | one h => exact hone hn h hf
    | cons h _ _ _ => exact absurd (List.length_eq_zero_iff.1 (Nat.le_zero.1 hk)) (by simp)
  | succ k ih =>
    intro s g rest hk hn h hf
    cases h with
    | one h => exact hone hn h hf
    | @cons s g w w' s' gs h hw hw' h' =>
      obtain ⟨c, cs, r1, rfl, h1, h2, h3⟩ := ih (s := s') (rest := rest) (by simp at hk; omega) (by simp at hn; omega) h' hf
      have et := trim_punct hw (c := '/') (by decide) ('/' :: (w' ++ (s' ++ rest)))
      have h4 := choice_run (rest := w ++ '/' :: ('/' :: (w' ++ (s' ++ rest)))) hr2 hc hg _ (Nat.le_refl _)
        (by simp at hn; omega) h (.inr ⟨_, et⟩)
      rw [et] at h4
      have e1 : s ++ (w ++ ('/' :: '/' :: w')) ++ s' ++ rest = s ++ (w ++ '/' :: ('/' :: (w' ++ (s' ++ rest)))) := by simp
      rw [e1]
      refine ⟨g, c :: cs, _, rfl, h4.many0, by simp; omega, ?_⟩
      have h5 := dslash_run (i := '/' :: ('/' :: (w' ++ (s' ++ rest)))) (u := w' ++ (s' ++ rest))
        (trim_noWs (noWs_slash _))
      rw [trim_ws hw'] at h5
      refine .step (r := r1) ?_ (by simp at h2 ⊢; omega) h3
      unfold preceded
      simp only [h5, h1, PR.bind]

theorem group_run (hr2 : r.type2 = type2 x r) (hrg : r.group = group r) (hc : Comp x r n) (hg : ∀ {s g w w' rest}, s.length + 2 ≤ n → WS w → GGroup x true s g → WS w' →
      inParens r ('(' :: (w ++ s ++ w') ++ [')'] ++ rest) = .ok rest g) {s g rest} (hn : s.length ≤ n)
    (h : GGroup x true s g) (hf : ∃ c u, trim rest = c :: u ∧ c ∈ ")]}".toList) :
    r.group (trim (s ++ rest)) = .ok (trim rest) g := by
  obtain ⟨c, cs, r1, rfl, h1, _, h3⟩ := group_parts hr2 hc hg _ (Nat.le_refl _) hn h hf
  have h4 := h3.many0
  rw [hrg]
  simp only [group, pmap, pair, h1, h4, PR.bind]

end Cddl
