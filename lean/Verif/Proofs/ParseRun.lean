import Verif.Proofs.ParseRunHead
import Verif.Proofs.ParseMono

/-!
# The parser reads every layout
-/

namespace Cddl

open Ast (Ty Ty1 Ty2 MemberKeyVal GrpEntVal GrpEnt Group GrpChoice RuleVal)

variable {x : ParseExt} {r : PRec} {n : Nat}

/-- The recursive parsers on texts up to a length: `type2` reads every layout of a type, and reads no group in
parentheses. -/
structure Comp (x : ParseExt) (r : PRec) (n : Nat) : Prop where
  t2 : ∀ {s t rest}, s.length ≤ n → GTy2 x true s t → AfterTy2 t rest → r.type2 (s ++ rest) = .ok rest t
  np : ∀ {s g} rest, s.length ≤ n → GVal x true s (.parens g) → ∃ e, r.type2 (s ++ rest) = .err e

/-! ## Failing parsers -/

/-- Characters that begin a `type2`. -/
def TypeHead (c : Char) : Prop := Digit c ∨ EAlpha c ∨ c ∈ "-\"'({[~&".toList

theorem nameGeneric_err {i : List Char} (h : NotHead EAlpha i) : ∃ e, nameGenericP r i = .err e := by
  obtain ⟨e, h⟩ := ident_err h
  exact ⟨e, by simp only [nameGenericP, pmap, pair, h, PR.bind]⟩

theorem inParens_err {i : List Char} (h : NotHead (fun c => c = '(') i) : ∃ e, inParens r i = .err e := by
  obtain ⟨e, h⟩ := chr_err h
  exact ⟨e, by simp only [inParens, delimited, preceded, h, PR.bind]⟩

theorem type2_err {i : List Char} (h : NotHead TypeHead i) : ∃ e, type2 x r i = .err e := by
  have hm : ∀ c ∈ "-\"'({[~&".toList, NotHead (fun d => d = c) i := fun c hc => h.imp fun d hd => by
    subst hd; exact .inr (.inr hc)
  obtain ⟨e1, h1⟩ := value_err x (i := i)
    (h.imp fun c hc => by
      rcases hc with h | rfl | rfl
      · exact .inl h
      · right; right; decide
      · right; right; decide)
    (by rintro r rfl; exact h (by right; right; decide))
    (by rintro r rfl; exact h (by right; left; unfold EAlpha; decide))
    (by rintro r rfl; exact h (by right; left; unfold EAlpha; decide))
  obtain ⟨e2, h2⟩ := nameGeneric_err (r := r) (h.imp fun c hc => .inr (.inl hc))
  obtain ⟨e3, h3⟩ := chr_err (hm '(' (by decide))
  obtain ⟨e4, h4⟩ := chr_err (hm '{' (by decide))
  obtain ⟨e5, h5⟩ := chr_err (hm '[' (by decide))
  obtain ⟨e6, h6⟩ : ∃ e, tag "~" i = .err e := tag_err (by rintro r rfl; exact hm '~' (by decide) rfl)
  obtain ⟨e7, h7⟩ : ∃ e, tag "&" i = .err e := tag_err (by rintro r rfl; exact hm '&' (by decide) rfl)
  exact ⟨e7, by
    simp only [type2, alt, pmap, h1, h2, type2Parens, type2Map, type2Array, delimited, preceded, h3, h4, h5, h6, h7,
      PR.bind]⟩

theorem type1_err {i : List Char} {e} (h : r.type2 i = .err e) : type1 r i = .err e := by
  simp only [type1, pmap, pair, h, PR.bind]

theorem ty_err {i : List Char} {e} (h : r.type2 i = .err e) : ty r i = .err e := by
  simp only [ty, sepList1, type1_err h, PR.bind]

theorem grpentMember_err {i : List Char} {e} (h : r.type2 i = .err e) : grpentMember r i = .err e := by
  simp only [grpentMember, terminated, type1_err h, PR.bind]

theorem punct_notTypeHead {c : Char} (hc : c ∈ "./,)]}:^=>*+?".toList) (u : List Char) : NotHead TypeHead (c :: u) := by
  have key : ∀ c ∈ "./,)]}:^=>*+?".toList, ¬ TypeHead c := by unfold TypeHead Digit EAlpha; decide
  exact key c hc

theorem notHead_cons {p : Char → Prop} {c : Char} (h : ¬ p c) (u : List Char) : NotHead p (c :: u) := h

theorem noWs_punct {c : Char} (hc : c ∈ "./,)]}:^=>*+?(){}[]~&".toList) (u : List Char) : NoWs (c :: u) := by
  have key : ∀ c ∈ "./,)]}:^=>*+?(){}[]~&".toList, ¬ (Blank c ∨ c = ';') := by unfold Blank; decide
  exact key c hc

/-! ## Names and generic arguments -/

theorem Ident.no_quote {s : List Char} (h : Ident s) : '\'' ∉ s := by
  have key : ¬ (EAlpha '\'' ∨ Digit '\'') := by unfold EAlpha Digit; decide
  have ht : ∀ {t : List Char}, IdTail t → '\'' ∉ t := by
    intro t h
    induction h with
    | nil => simp
    | @cons ps c t h1 h2 _ ih =>
      intro hm
      rcases List.mem_append.1 hm with hm | hm
      · rcases h1 _ hm with h | h <;> revert h <;> decide
      · rcases List.mem_cons.1 hm with rfl | hm
        · exact key h2
        · exact ih hm
  cases h with
  | @mk c t hc h =>
    intro hm
    rcases List.mem_cons.1 hm with rfl | hm
    · exact key (.inl hc)
    · exact ht h hm

/-- An identifier is not taken for a literal. -/
theorem value_ident (x : ParseExt) {s rest : List Char} (h : Ident s) (hr : NotHead (fun c => c = '\'' ∨ Digit c) rest) :
    ∃ e, value x (s ++ rest) = .err e := by
  have hq := h.no_quote
  refine value_err x ?_ ?_ ?_ ?_
  · cases h with
    | @mk c t hc _ =>
      intro hx
      rcases hx with h | h
      · exact GTy2.noOccur.ealpha_digit hc h
      · have key : ∀ c ∈ "-\"".toList, ¬ EAlpha c := by unfold EAlpha; decide
        exact key c (by rcases h with rfl | rfl <;> decide) hc
  · intro r e
    cases h with
    | @mk c t hc _ =>
      simp at e
      exact absurd hc (by rw [e.1]; unfold EAlpha; decide)
  · intro r e
    match s, hq, e with
    | [], _, _ => cases h
    | [_], _, e => simp at e; rw [e.2] at hr; exact hr (.inl rfl)
    | _ :: _ :: _, hq, e => simp at e hq; exact hq.2.1 e.2.1.symm
  · intro r e
    match s, hq, e with
    | [], _, _ => cases h
    | [_], _, e => simp at e; rw [e.2] at hr; exact hr (.inr (by unfold Digit; decide))
    | [_, _], _, e => simp at e; rw [e.2.2] at hr; exact hr (.inr (by unfold Digit; decide))
    | [_, _, _], _, e => simp at e; rw [e.2.2.2] at hr; exact hr (.inl rfl)
    | _ :: _ :: _ :: _ :: _, hq, e => simp at e hq; exact hq.2.2.2.1 e.2.2.2.1.symm

theorem genericArg_none {i : List Char} (h : NotHead (fun c => c = '<') i) : opt (genericArg r) i = .ok i none := by
  obtain ⟨e, h⟩ : ∃ e, tag "<" i = .err e := tag_err (by rintro r rfl; exact h rfl)
  simp only [opt, genericArg, delimited, preceded, pair, h, PR.bind]

theorem type1_run (hc : Comp x r n) {s t rest} (hs : s.length ≤ n) (h : GTy1 x true s t) (hr : AfterTy1 t rest)
    (hd : NotHead (fun c => c = '.') (trim rest)) : type1 r (s ++ rest) = .ok rest t := by
  have hdd : ∀ {s : List Char}, Starts s → ∀ {w : List Char}, WS w → ∀ t, w ++ s ≠ '.' :: t := by
    intro s hs w hw
    refine ws_dots ?_ hw
    rintro t rfl
    obtain ⟨c, t', h, hc⟩ := hs
    simp at h
    obtain ⟨rfl, -⟩ := h
    exact absurd hc (by decide)
  cases h with
  | simple h =>
    have h1 := hc.t2 hs h hr
    obtain ⟨t', h2⟩ := ws_trim rest
    obtain ⟨e3, h3⟩ : ∃ e, tag "..." (trim rest) = .err e := tag_err (by intro r e; rw [e] at hd; exact hd rfl)
    obtain ⟨e4, h4⟩ : ∃ e, tag ".." (trim rest) = .err e := tag_err (by intro r e; rw [e] at hd; exact hd rfl)
    obtain ⟨e5, h5⟩ : ∃ e, tag "." (trim rest) = .err e := tag_err (by intro r e; rw [e] at hd; exact hd rfl)
    simp only [type1, pmap, pair, h1, PR.bind, opt, preceded, h2, rangeOrControlOp, alt, h3, h4, controlOp, h5, makeType1]
  | @range s a w w' s' b h hw hw' h' ha =>
    have h1 := hc.t2 (rest := (w ++ ['.', '.']) ++ (w' ++ s' ++ rest)) (by simp at hs; omega) h
      ((ha rfl).ext (by simp) (by intro h; have := congrArg List.length h; simp at this))
    obtain ⟨t1, h2⟩ := ws_run (u := '.' :: '.' :: (w' ++ (s' ++ rest))) hw (noWs_punct (by decide) _)
    have h3 : tag ".." ('.' :: '.' :: (w' ++ (s' ++ rest))) = .ok (w' ++ (s' ++ rest)) ['.', '.'] := tag_ok ".." ['.', '.'] _ rfl
    obtain ⟨e4, h4⟩ : ∃ e, tag "..." ('.' :: '.' :: (w' ++ (s' ++ rest))) = .err e := tag_err (by
      intro q e
      simp at e
      exact hdd (h'.starts.app rest) hw' q e)
    obtain ⟨t5, h5⟩ := ws_trim (w' ++ (s' ++ rest))
    rw [trim_ws hw', (h'.starts.app rest).trim] at h5
    have h6 := hc.t2 (rest := rest) (by simp at hs; omega) h' hr
    simp only [List.append_assoc, List.cons_append, List.nil_append] at h1 h2 ⊢
    simp only [type1, pmap, pair, h1, PR.bind, opt, preceded, h2, rangeOrControlOp, alt, h3, h4, h5, h6, makeType1]
    rw [if_pos (by decide)]
  | @rangeExcl s a w w' s' b h hw hw' h' ha =>
    have h1 := hc.t2 (rest := (w ++ ['.', '.']) ++ ('.' :: (w' ++ s' ++ rest))) (by simp at hs; omega) h
      ((ha rfl).ext (by simp) (by intro h; have := congrArg List.length h; simp at this))
    obtain ⟨t1, h2⟩ := ws_run (u := '.' :: '.' :: '.' :: (w' ++ (s' ++ rest))) hw (noWs_punct (by decide) _)
    have h3 : tag "..." ('.' :: '.' :: '.' :: (w' ++ (s' ++ rest))) = .ok (w' ++ (s' ++ rest)) ['.', '.', '.'] :=
      tag_ok "..." ['.', '.', '.'] _ rfl
    obtain ⟨t5, h5⟩ := ws_trim (w' ++ (s' ++ rest))
    rw [trim_ws hw', (h'.starts.app rest).trim] at h5
    have h6 := hc.t2 (rest := rest) (by simp at hs; omega) h' hr
    simp only [List.append_assoc, List.cons_append, List.nil_append] at h1 h2 ⊢
    simp only [type1, pmap, pair, h1, PR.bind, opt, preceded, h2, rangeOrControlOp, alt, h3, h5, h6, makeType1]
    rw [if_neg (by decide), if_pos (by decide)]
  | @control s a w op w' s' b h hw hop hw' h' ha =>
    have hopl := List.length_pos_iff.2 hop.ne
    have h1 := hc.t2 (rest := (w ++ '.' :: op) ++ (w' ++ s' ++ rest)) (by simp at hs; omega) h
      ((ha rfl).1.ext (by simp) (by intro h; have := congrArg List.length h; simp at this; omega))
    obtain ⟨t1, h2⟩ := ws_run (u := '.' :: (op ++ (w' ++ (s' ++ rest)))) hw (noWs_punct (by decide) _)
    have h3 : tag "." ('.' :: (op ++ (w' ++ (s' ++ rest)))) = .ok (op ++ (w' ++ (s' ++ rest))) ['.'] :=
      tag_ok "." ['.'] _ rfl
    have hop' : ∀ q, op ++ (w' ++ (s' ++ rest)) ≠ '.' :: q := by
      intro q e
      cases hop with
      | @mk c t hc _ => simp at e; exact absurd hc (by rw [e.1]; unfold EAlpha; decide)
    obtain ⟨e4, h4⟩ : ∃ e, tag "..." ('.' :: (op ++ (w' ++ (s' ++ rest)))) = .err e := tag_err (by
      intro q e
      simp only [show "...".toList = ['.', '.', '.'] from rfl, List.cons_append, List.cons.injEq, true_and] at e
      exact hop' _ e)
    obtain ⟨e5, h5⟩ : ∃ e, tag ".." ('.' :: (op ++ (w' ++ (s' ++ rest)))) = .err e := tag_err (by
      intro q e
      simp only [show "..".toList = ['.', '.'] from rfl, List.cons_append, List.cons.injEq, true_and] at e
      exact hop' _ e)
    have hid : IdentEnd (w' ++ (s' ++ rest)) := by
      rw [← List.append_assoc]
      exact AfterIdent.end (NotHead.ext (ha rfl).2 (by simp [h'.ne]))
    have h6 := ident_run hop hid
    obtain ⟨t7, h7⟩ := ws_trim (w' ++ (s' ++ rest))
    rw [trim_ws hw', (h'.starts.app rest).trim] at h7
    have h8 := hc.t2 (rest := rest) (by simp at hs; omega) h' hr
    simp only [List.append_assoc, List.cons_append, List.nil_append] at h1 h2 ⊢
    simp only [type1, pmap, pair, h1, PR.bind, opt, preceded, h2, rangeOrControlOp, alt, controlOp, h3, h4, h5, h6, h7, h8,
      makeType1]
    have n1 : op ≠ "..".toList := hop.not_dot _
    have n2 : op ≠ "...".toList := hop.not_dot _
    rw [if_neg n1, if_neg n2]

/-! ## Types -/

/-- What may stand behind a type. -/
def TyFollow (rest : List Char) : Prop :=
  NotHead (fun c => c = '.') (trim rest) ∧
    (NotHead (fun c => c = '/') (trim rest) ∨ ∃ u, trim rest = '/' :: '/' :: u)

theorem slash_run {i u : List Char} (h : trim i = '/' :: u) : slash i = .ok (trim u) ['/'] := by
  obtain ⟨t, h1⟩ := ws_trim i
  rw [h] at h1
  obtain ⟨t', h2⟩ := ws_trim u
  have h3 : tag "/" ('/' :: u) = .ok u ['/'] := tag_ok "/" ['/'] _ rfl
  simp only [slash, delimited, preceded, terminated, h1, h2, h3, PR.bind]

theorem slash_none {i : List Char} (h : NotHead (fun c => c = '/') (trim i)) : ∃ e, slash i = .err e := by
  obtain ⟨t, h1⟩ := ws_trim i
  obtain ⟨e, h2⟩ : ∃ e, tag "/" (trim i) = .err e := tag_err (by intro r e; rw [e] at h; exact h rfl)
  exact ⟨e, by simp only [slash, delimited, preceded, terminated, h1, h2, PR.bind]⟩

theorem noWs_slash (u : List Char) : NoWs ('/' :: u) := noWs_punct (by decide) u

theorem slash_stop (hr2 : r.type2 = type2 x r) {i : List Char} (h : NotHead (fun c => c = '/') (trim i) ∨ ∃ u, trim i = '/' :: '/' :: u) :
    Seps slash (type1 r) i [] i ∧ Many (preceded slash (type1 r)) i [] i := by
  rcases h with h | ⟨u, h⟩
  · obtain ⟨e, h⟩ := slash_none h
    exact ⟨.stop h, .stop (e := e) (by simp only [preceded, h, PR.bind])⟩
  · have h1 := slash_run h
    rw [trim_noWs (noWs_slash u)] at h1
    obtain ⟨e, h2⟩ := type2_err (x := x) (r := r) (punct_notTypeHead (c := '/') (by decide) u)
    rw [← hr2] at h2
    have h3 := type1_err h2
    have hl := trim_length i
    rw [h] at hl
    simp at hl
    exact ⟨.stop' h1 (by simp; omega) h3, .stop (e := e) (by simp only [preceded, h1, h3, PR.bind])⟩

/-- How the alternatives of a type are read. -/
structure TyRun (r : PRec) (s : List Char) (t : Ty) (rest : List Char) (t1 : Ty1) (ts : Ty) (r1 : List Char) : Prop where
  eq : t = t1 :: ts
  first : type1 r (s ++ rest) = .ok r1 t1
  seps : Seps slash (type1 r) r1 ts rest
  len : rest.length ≤ r1.length
  len' : r1.length ≤ (s ++ rest).length
  last : (ts = [] ∧ r1 = rest) ∨ (ts ≠ [] ∧ ∃ u, trim r1 = '/' :: u)
  many : ∀ i, trim i = trim r1 → rest.length ≤ i.length →
    ∃ r', Many (preceded slash (type1 r)) i ts r' ∧ ((ts = [] ∧ r' = i) ∨ (ts ≠ [] ∧ r' = rest))

theorem ty_parts (hr2 : r.type2 = type2 x r) (hc : Comp x r n) : ∀ (k : Nat) {s t rest}, s.length ≤ k → s.length ≤ n → GTy x true s t →
    AfterTy t rest → TyFollow rest → ∃ t1 ts r1, TyRun r s t rest t1 ts r1 := by
  intro k
  induction k with
  | zero =>
    intro s t rest hk _ h
    exact absurd (List.length_eq_zero_iff.1 (Nat.le_zero.1 hk)) h.ne
  | succ k ih =>
    intro s t rest hk hn h ha hf
    cases h with
    | @one s t h =>
      refine ⟨t, [], rest, rfl, type1_run hc hn h (ha _ rfl) hf.1, (slash_stop hr2 hf.2).1, Nat.le_refl _, by simp,
        .inl ⟨rfl, rfl⟩, ?_⟩
      intro i hi hl
      exact ⟨i, (slash_stop hr2 (by rw [hi]; exact hf.2)).2, .inl ⟨rfl, rfl⟩⟩
    | @cons s t w w' s' ts h hw hw' h' =>
      have hts : ts ≠ [] := by cases h' <;> simp
      have hlast : AfterTy ts rest := by
        intro u hu
        refine ha u ?_
        cases ts with
        | nil => exact absurd rfl hts
        | cons a ts => exact hu
      have hsl := List.length_pos_iff.2 h.ne
      obtain ⟨t2, ts2, r2, hrun⟩ := ih (s := s') (t := ts) (rest := rest) (by simp at hk; omega) (by simp at hn; omega) h'
        hlast hf
      have etrim : trim (w ++ '/' :: (w' ++ (s' ++ rest))) = '/' :: (w' ++ (s' ++ rest)) := by
        rw [trim_ws hw, trim_noWs (noWs_slash _)]
      have h1 := type1_run (rest := w ++ '/' :: (w' ++ (s' ++ rest))) hc (by simp at hn; omega) h
        ((slash_safe hw _).ty1 _) (by rw [etrim]; simp [NotHead])
      have e2 : trim (w' ++ (s' ++ rest)) = s' ++ rest := by rw [trim_ws hw', (h'.starts.app rest).trim]
      have hl1 := hrun.len
      have hl2 := hrun.len'
      refine ⟨t, ts, w ++ '/' :: (w' ++ (s' ++ rest)), rfl, by simpa using h1, ?_, by simp; omega, by simp, .inr ⟨hts, _, etrim⟩, ?_⟩
      · have h3 := slash_run etrim
        rw [e2] at h3
        rw [hrun.eq]
        exact .step h3 (by simp; omega) hrun.first hl2 hrun.seps
      · intro i hi hl
        have hti := trim_length i
        rw [hi, etrim] at hti
        have h3 := slash_run (hi.trans etrim)
        rw [e2] at h3
        obtain ⟨r', hm, hr'⟩ := hrun.many r2 rfl hl1
        refine ⟨r', ?_, .inr ⟨hts, ?_⟩⟩
        · rw [hrun.eq]
          refine .step (r := r2) (by simp only [preceded, h3, PR.bind, hrun.first]) ?_ hm
          simp at hti hl2
          omega
        · rcases hrun.last with ⟨hn', hr1⟩ | ⟨hn', _⟩
          · rcases hr' with ⟨_, h⟩ | ⟨h, _⟩
            · rw [h, hr1]
            · exact absurd hn' h
          · rcases hr' with ⟨h, _⟩ | ⟨_, h⟩
            · exact absurd h hn'
            · exact h

theorem ty_run (hr2 : r.type2 = type2 x r) (hc : Comp x r n) {s t rest} (hs : s.length ≤ n) (h : GTy x true s t)
    (ha : AfterTy t rest) (hf : TyFollow rest) : ty r (s ++ rest) = .ok rest t := by
  obtain ⟨t1, ts, r1, hrun⟩ := ty_parts hr2 hc _ (Nat.le_refl _) hs h ha hf
  rw [hrun.eq]
  exact Seps.sepList1 hrun.first hrun.seps

theorem args_run (hc : Comp x r n) : ∀ (k : Nat) {s as rest}, s.length ≤ k → s.length ≤ n → GArgs x true s as →
    ∃ t ts r1, as = t :: ts ∧ terminated (type1 r) ws (s ++ '>' :: rest) = .ok r1 t ∧
      Seps (pair (tag ",") ws) (terminated (type1 r) ws) r1 ts ('>' :: rest) ∧
      r1.length ≤ (s ++ '>' :: rest).length := by
  intro k
  induction k with
  | zero =>
    intro s as rest hk _ h
    exfalso
    have := List.length_eq_zero_iff.1 (Nat.le_zero.1 hk)
    cases h with
    | one h _ => simp at this; exact h.ne this.1
    | cons h _ _ _ => simp at this
  | succ k ih =>
    intro s as rest hk hn h
    have hterm : ∀ {s t w c u}, s.length ≤ n → GTy1 x true s t → WS w → c ∈ "/,)]}:^=>".toList →
        terminated (type1 r) ws (s ++ (w ++ c :: u)) = .ok (c :: u) t := by
      intro s t w c u hs h hw hcm
      have e : trim (w ++ c :: u) = c :: u := by
        rw [trim_ws hw]
        refine trim_noWs ?_
        have key : ∀ c ∈ "/,)]}:^=>".toList, ¬ (Blank c ∨ c = ';') := by unfold Blank; decide
        exact key c hcm
      have h1 := type1_run (rest := w ++ c :: u) hc hs h ((safe_ws hw (safe_punct hcm _)).ty1 _) (by
        rw [e]
        have key : ∀ c ∈ "/,)]}:^=>".toList, ¬ c = '.' := by decide
        exact key c hcm)
      obtain ⟨t', h2⟩ := ws_trim (w ++ c :: u)
      rw [e] at h2
      simp only [terminated, h1, h2, PR.bind]
    cases h with
    | @one s t w h hw =>
      refine ⟨t, [], '>' :: rest, rfl, ?_, ?_, by simp; omega⟩
      · rw [List.append_assoc]
        exact hterm (by simp at hn; omega) h hw (by decide)
      · obtain ⟨e, h2⟩ : ∃ e, tag "," ('>' :: rest) = .err e := tag_err (by intro r e; simp at e)
        exact .stop (e := e) (by simp only [pair, h2, PR.bind])
    | @cons s t w w' a as h hw hw' h' =>
      have hsl := List.length_pos_iff.2 h.ne
      obtain ⟨t2, ts, r1, rfl, h1, h2, h3⟩ := ih (s := a) (rest := rest) (by simp at hk; omega) (by simp at hn; omega) h'
      refine ⟨t, t2 :: ts, ',' :: (w' ++ (a ++ '>' :: rest)), rfl, ?_, ?_, by simp; omega⟩
      · have := hterm (u := w' ++ (a ++ '>' :: rest)) (c := ',') (by simp at hn; omega) h hw (by decide)
        simpa using this
      · have h4 : tag "," (',' :: (w' ++ (a ++ '>' :: rest))) = .ok (w' ++ (a ++ '>' :: rest)) [','] := tag_ok "," [','] _ rfl
        obtain ⟨t5, h5⟩ := ws_trim (w' ++ (a ++ '>' :: rest))
        have hst : Starts a := by
          cases h' with
          | one h _ => exact h.starts.app _
          | cons h _ _ _ => exact ((h.starts.app _).app _).app _
        rw [trim_ws hw', (hst.app _).trim] at h5
        exact .step (r := a ++ '>' :: rest) (b := ([','], t5)) (by simp only [pair, h4, h5, PR.bind]) (by simp; omega) h1 h3 h2

theorem genericArg_run (hc : Comp x r n) {w a as rest} (hs : a.length ≤ n) (hw : WS w) (h : GArgs x true a as) :
    genericArg r ('<' :: (w ++ (a ++ '>' :: rest))) = .ok rest as := by
  obtain ⟨t, ts, r1, rfl, h1, h2, h3⟩ := args_run hc _ (Nat.le_refl _) (rest := rest) hs h
  have h4 : tag "<" ('<' :: (w ++ (a ++ '>' :: rest))) = .ok (w ++ (a ++ '>' :: rest)) ['<'] := tag_ok "<" ['<'] _ rfl
  obtain ⟨t5, h5⟩ := ws_trim (w ++ (a ++ '>' :: rest))
  have hst : Starts a := by
    cases h with
    | one h _ => exact h.starts.app _
    | cons h _ _ _ => exact ((h.starts.app _).app _).app _
  rw [trim_ws hw, (hst.app _).trim] at h5
  have h6 := Seps.sepList1 h1 h2
  have h7 : tag ">" ('>' :: rest) = .ok rest ['>'] := tag_ok ">" ['>'] _ rfl
  simp only [genericArg, delimited, preceded, terminated, pair, h4, h5, h6, h7, PR.bind]

theorem name_run (hc : Comp x r n) {s nm as rest} (hs : s.length ≤ n + 1) (h : GName x true s nm as)
    (hr : as = [] → AfterIdent rest) :
    nameGenericP r (s ++ rest) = .ok rest (nm, as) ∧ ∃ e, value x (s ++ rest) = .err e := by
  cases h with
  | plain h =>
    have ha := hr rfl
    have h1 := ident_run h (AfterIdent.end ha)
    have h2 := genericArg_none (r := r) (NotHead.imp ha fun c hc => by simp [hc])
    exact ⟨by simp only [nameGenericP, pmap, pair, h1, h2, PR.bind, Option.getD], value_ident x h (NotHead.imp ha fun c hc => by
      rcases hc with h | h <;> simp [h])⟩
  | @generic s w a as h hw h' =>
    have h1 := ident_run (r := '<' :: (w ++ (a ++ '>' :: rest))) h (notHead_cons (by
      unfold EAlpha Digit; decide) _)
    have hsl := List.length_pos_iff.2 h.ne
    have h2 := genericArg_run (rest := rest) hc (by simp at hs; omega) hw h'
    obtain ⟨e, h3⟩ := value_ident x (rest := '<' :: (w ++ (a ++ '>' :: rest))) h (notHead_cons (by
      unfold Digit; decide) _)
    have e1 : s ++ ('<' :: w ++ (a ++ ['>'])) ++ rest = s ++ '<' :: (w ++ (a ++ '>' :: rest)) := by simp
    rw [e1]
    exact ⟨by simp only [nameGenericP, pmap, pair, h1, opt, h2, PR.bind, Option.getD], e, h3⟩

end Cddl
