import Verif.Proofs.ParseRunGroup

/-!
# The parser reads every layout: the recursion, rules and whole texts
-/

namespace Cddl

open Ast (Ty Ty1 Ty2 MemberKeyVal GrpEntVal GrpEnt Group GrpChoice RuleVal)

variable {x : ParseExt} {r : PRec} {n : Nat}

/-! ## A group in parentheses that is not a type -/

/-- `ty` fails here, or stops before something that is not a closing parenthesis. -/
def NotTy (r : PRec) (u : List Char) : Prop :=
  (∃ e, ty r u = .err e) ∨ ∃ r' t, ty r u = .ok r' t ∧ NotHead (fun c => c = ')') (trim r')

theorem ty_one (hc : Comp x r n) {s t w c u} (hs : s.length ≤ n) (h : GTy1 x true s t) (hw : WS w)
    (hcm : c ∈ ":^=".toList) : ty r (s ++ (w ++ c :: u)) = .ok (w ++ c :: u) [t] := by
  have key : ∀ c ∈ ":^=".toList, c ∈ "/,)]}:^=>".toList ∧ c ∈ "./,)]}:^=>*+?(){}[]~&".toList ∧ c ≠ '.' ∧ c ≠ '/' := by
    decide
  obtain ⟨k1, k2, k3, k4⟩ := key c hcm
  have et := trim_punct hw k2 u
  have h1 := type1_run (rest := w ++ c :: u) hc hs h ((safe_ws hw (safe_punct k1 u)).ty1 _) (by rw [et]; exact k3)
  obtain ⟨e, h2⟩ := slash_none (i := w ++ c :: u) (by rw [et]; exact k4)
  exact Seps.sepList1 h1 (.stop h2)

theorem colon_notTy (hc : Comp x r n) {s t w c u} (hs : s.length ≤ n) (h : GTy1 x true s t) (hw : WS w)
    (hcm : c ∈ ":^=".toList) : NotTy r (s ++ (w ++ c :: u)) := by
  refine .inr ⟨_, _, ty_one hc hs h hw hcm, ?_⟩
  have key : ∀ c ∈ ":^=".toList, c ∈ "./,)]}:^=>*+?(){}[]~&".toList ∧ c ≠ ')' := by decide
  rw [trim_punct hw (key c hcm).1]
  exact (key c hcm).2

theorem star_notTy (hr2 : r.type2 = type2 x r) {u : List Char} {m : Nat} (h : UintText u m) (hm : m < 2 ^ 64) (q : List Char) :
    NotTy r (u ++ '*' :: q) := by
  have hfrac : opt dotFraction ('*' :: q) = .ok ('*' :: q) none := by
    obtain ⟨e, he⟩ := chr_err (c := '.') (i := '*' :: q) (by simp [NotHead])
    simp only [opt, dotFraction, recognize, pair, he, PR.bind]
  obtain ⟨raw, h1, h2, h3⟩ := floatOrInt_int' x (sg := []) (.inl rfl) h (star_end u q) hfrac
    (eExponent_none (by simp [NotHead]))
  rw [if_pos (by simpa using hm)] at h3
  have h2' : raw.neg = false := by rw [h2]; rfl
  simp only [List.nil_append, parseInt, h3, h2', Bool.false_eq_true, if_false] at h1
  have h4 : r.type2 (u ++ '*' :: q) = .ok ('*' :: q) (.value (.uint m)) := by
    rw [hr2]
    simp only [type2, alt, pmap, value, h1, PR.bind]
  have et : trim ('*' :: q) = '*' :: q := trim_noWs (noWs_punct (by decide) q)
  obtain ⟨t5, h5⟩ := ws_trim ('*' :: q)
  rw [et] at h5
  have h6 : type1 r (u ++ '*' :: q) = .ok ('*' :: q) (.simple (.value (.uint m))) := by
    obtain ⟨e7, h7⟩ : ∃ e, tag "..." ('*' :: q) = .err e := tag_err (by intro r e; simp at e)
    obtain ⟨e8, h8⟩ : ∃ e, tag ".." ('*' :: q) = .err e := tag_err (by intro r e; simp at e)
    obtain ⟨e9, h9⟩ : ∃ e, tag "." ('*' :: q) = .err e := tag_err (by intro r e; simp at e)
    simp only [type1, pmap, pair, h4, PR.bind, opt, preceded, h5, rangeOrControlOp, alt, h7, h8, controlOp, h9, makeType1]
  obtain ⟨e, h7⟩ := slash_none (i := '*' :: q) (by rw [et]; simp [NotHead])
  exact .inr ⟨_, _, Seps.sepList1 h6 (.stop h7), by rw [et]; simp [NotHead]⟩

theorem head_notTy (hr2 : r.type2 = type2 x r) {c : Char} (hc : c ∈ "./,)]}:^=>*+?".toList) (u : List Char) :
    NotTy r (c :: u) := by
  obtain ⟨e, h⟩ := type2_err (x := x) (r := r) (punct_notTypeHead hc u)
  rw [← hr2] at h
  exact .inl ⟨e, ty_err h⟩

theorem occur_notTy (hr2 : r.type2 = type2 x r) {s o} (h : OccurText s o) (q : List Char) : NotTy r (s ++ q) := by
  cases h with
  | optional => exact head_notTy hr2 (by decide) _
  | plus => exact head_notTy hr2 (by decide) _
  | star => exact head_notTy hr2 (by decide) _
  | lower h hn =>
    rw [List.append_assoc]
    exact star_notTy hr2 h hn _
  | upper _ _ => exact head_notTy hr2 (by decide) _
  | both h hn _ _ =>
    rw [List.append_assoc]
    exact star_notTy hr2 h hn _

theorem entry_notTy (hr2 : r.type2 = type2 x r) (hc : Comp x r n) {s o v X} (hs : s.length ≤ n)
    (h : GEntry x true s (.mk o v))
    (hm : ∀ t, o = none → v = .member t → AfterTy t X ∧ TyFollow X ∧ NotHead (fun c => c = ')') (trim X)) :
    NotTy r (s ++ X) := by
  cases h with
  | occur h _ _ _ =>
    rw [List.append_assoc, List.append_assoc]
    exact occur_notTy hr2 h _
  | plain h =>
    have h0 := h
    cases h with
    | @bareword k w w' s t h hw _ _ =>
      have := colon_notTy (c := ':') (u := w' ++ (s ++ X)) hc (t := .simple (.typename (String.ofList k) []))
        (by simp at hs; omega) (.simple (.name (.plain h))) hw (by decide)
      simpa using this
    | @value k v w w' s t h hw _ _ =>
      have := colon_notTy (c := ':') (u := w' ++ (s ++ X)) hc (by simp at hs; omega) (.simple (.value h)) hw (by decide)
      simpa using this
    | @type1 k u w w' s t h hw _ _ =>
      have := colon_notTy (c := '=') (u := '>' :: (w' ++ (s ++ X))) hc (by simp at hs; omega) h hw (by decide)
      simpa using this
    | @cut k u w v w' s t h hw _ _ _ =>
      have := colon_notTy (c := '^') (u := v ++ '=' :: '>' :: (w' ++ (s ++ X))) hc (by simp at hs; omega) h hw (by decide)
      simpa using this
    | @member s t w h hw hst =>
      obtain rfl := hst rfl
      obtain ⟨h1, h2, h3⟩ := hm t rfl rfl
      rw [List.append_nil]
      exact .inr ⟨_, _, ty_run hr2 hc (by simpa using hs) h h1 h2, h3⟩
    | groupname _ h => cases h
    | parens _ _ _ _ =>
      obtain ⟨e, h1⟩ := hc.np X hs h0
      exact .inl ⟨e, ty_err h1⟩
    | comma _ _ _ _ _ =>
      obtain ⟨e, h1⟩ := hc.np X hs h0
      exact .inl ⟨e, ty_err h1⟩

theorem choice_notTy (hr2 : r.type2 = type2 x r) (hc : Comp x r n) {s es rest} (hs : s.length ≤ n)
    (h : GChoice x true s es) (hf : ChoiceFollow rest)
    (hnt : (∀ t, es ≠ [.mk none (.member t)]) ∨ ∃ u, trim rest = '/' :: '/' :: u) : NotTy r (trim (s ++ rest)) := by
  cases h with
  | nil =>
    obtain ⟨c, u, h, hcm⟩ := hf.head
    rw [List.nil_append, h]
    have key : ∀ c ∈ "/)]}".toList, c ∈ "./,)]}:^=>*+?".toList := by decide
    exact head_notTy hr2 (key c hcm) u
  | @cons s o v c s' es h hcm h' ha =>
    have e1 : s ++ c ++ s' ++ rest = s ++ (c ++ (s' ++ rest)) := by simp
    rw [e1, (h.starts.app _).trim]
    obtain ⟨sv, hv⟩ := h.val
    refine entry_notTy hr2 hc (by simp at hs; omega) h ?_
    rintro t rfl rfl
    refine ⟨entry_after hv h' hf hcm (ha rfl), (entry_follow h' hf hcm).ty, ?_⟩
    cases hcm with
    | @some w w' hw hw' =>
      rw [List.append_assoc, List.cons_append, trim_punct hw (by decide)]
      exact notHead_cons (by decide) _
    | none hw =>
      rw [trim_ws hw]
      rcases trim_starts_or h' with ⟨rfl, rfl⟩ | ⟨hs', hne⟩
      · rcases hnt with hnt | ⟨u, hu⟩
        · exact absurd rfl (hnt t)
        · rw [List.nil_append, hu]; exact notHead_cons (by decide) _
      · rw [(hs'.app rest).trim]
        exact (hs'.app rest).notHead (by rintro c rfl; decide)

theorem group_notTy (hr2 : r.type2 = type2 x r) (hc : Comp x r n) {s g rest} (hs : s.length ≤ n)
    (h : GGroup x true s g) (hf : ∃ c u, trim rest = c :: u ∧ c ∈ ")]}".toList) (hnt : ¬ TypeLike g) :
    NotTy r (trim (s ++ rest)) := by
  cases h with
  | one h =>
    refine choice_notTy hr2 hc hs h (.inl hf) (.inl ?_)
    rintro t rfl
    exact hnt trivial
  | @cons s g w w' s' gs h hw hw' h' =>
    have e1 : s ++ (w ++ ('/' :: '/' :: w')) ++ s' ++ rest = s ++ (w ++ '/' :: ('/' :: (w' ++ (s' ++ rest)))) := by simp
    have et := trim_punct hw (c := '/') (by decide) ('/' :: (w' ++ (s' ++ rest)))
    rw [e1]
    exact choice_notTy hr2 hc (by simp at hs; omega) h (.inr ⟨_, et⟩) (.inr ⟨_, et⟩)

/-! ## The recursion -/

/-- A group between brackets. -/
theorem bracket_run (hr2 : r.type2 = type2 x r) (hrg : r.group = group r) (hc : Comp x r n)
    (hg : ∀ {s g w w' rest}, s.length + 2 ≤ n → WS w → GGroup x true s g → WS w' →
      inParens r ('(' :: (w ++ s ++ w') ++ [')'] ++ rest) = .ok rest g)
    {o c : Char} (hcl : c ∈ ")]}".toList) {s g w w' rest} (hs : s.length ≤ n) (hw : WS w) (h : GGroup x true s g)
    (hw' : WS w') :
    delimited (chr o) (delimited ws r.group ws) (chr c) (o :: (w ++ s ++ w') ++ [c] ++ rest) = .ok rest g := by
  have e1 : o :: (w ++ s ++ w') ++ [c] ++ rest = o :: (w ++ (s ++ (w' ++ c :: rest))) := by simp
  have key : ∀ c ∈ ")]}".toList, c ∈ "./,)]}:^=>*+?(){}[]~&".toList := by decide
  have et := trim_punct hw' (key c hcl) rest
  obtain ⟨t1, h1⟩ := ws_trim (w ++ (s ++ (w' ++ c :: rest)))
  rw [trim_ws hw] at h1
  have h2 := group_run hr2 hrg hc hg (rest := w' ++ c :: rest) hs h ⟨c, rest, et, hcl⟩
  rw [et] at h2
  obtain ⟨t3, h3⟩ := ws_trim (c :: rest)
  rw [trim_noWs (noWs_punct (key c hcl) rest)] at h3
  rw [e1]
  simp only [delimited, preceded, terminated, chr_ok, h1, h2, h3, PR.bind]

/-- The induction hypothesis together with its consequence for groups in parentheses. -/
structure Comp' (x : ParseExt) (r : PRec) (n : Nat) : Prop extends Comp x r n where
  ip : ∀ {s g w w' rest}, s.length + 2 ≤ n → WS w → GGroup x true s g → WS w' →
    inParens r ('(' :: (w ++ s ++ w') ++ [')'] ++ rest) = .ok rest g

theorem open_err (x : ParseExt) (r : PRec) {c : Char} (hc : c ∈ "({[~&".toList) (i : List Char) :
    (∃ e, value x (c :: i) = .err e) ∧ ∃ e, nameGenericP r (c :: i) = .err e := by
  have key : ∀ c ∈ "({[~&".toList, ¬ (Digit c ∨ c = '-' ∨ c = '"') ∧ c ≠ '\'' ∧ c ≠ 'h' ∧ c ≠ 'b' ∧ ¬ EAlpha c := by
    unfold Digit EAlpha; decide
  obtain ⟨k1, k2, k3, k4, k5⟩ := key c hc
  refine ⟨value_err x k1 ?_ ?_ ?_, nameGeneric_err k5⟩
  · intro r e; simp at e; exact k2 e.1
  · intro r e; simp at e; exact k3 e.1
  · intro r e; simp at e; exact k4 e.1

theorem type2_run (hr2 : r.type2 = type2 x r) (hrg : r.group = group r) (hc : Comp' x r n) {s t rest}
    (hs : s.length ≤ n + 1) (h : GTy2 x true s t) (ha : AfterTy2 t rest) : r.type2 (s ++ rest) = .ok rest t := by
  have hname : ∀ {w s nm as}, WS w → s.length ≤ n + 1 → GName x true s nm as → (as = [] → AfterIdent rest) →
      preceded ws (nameGenericP r) (w ++ (s ++ rest)) = .ok rest (nm, as) := by
    intro w s nm as hw hs h ha
    obtain ⟨t1, h1⟩ := ws_trim (w ++ (s ++ rest))
    rw [trim_ws hw, (h.starts.app rest).trim] at h1
    simp only [preceded, h1, (name_run hc.toComp hs h ha).1, PR.bind]
  rw [hr2]
  cases h with
  | value h => simp only [type2, alt, pmap, value_run x h ha, PR.bind]
  | @name s nm as h =>
    obtain ⟨h1, e, h2⟩ := name_run hc.toComp hs h (by rintro rfl; exact ha)
    simp only [type2, alt, pmap, h1, h2, PR.bind]
  | @parens w s t w' hw h hw' =>
    obtain ⟨⟨e1, h1⟩, e2, h2⟩ := open_err x r (c := '(') (by decide) (w ++ (s ++ (w' ++ ')' :: rest)))
    have e : '(' :: (w ++ s ++ w') ++ [')'] ++ rest = '(' :: (w ++ (s ++ (w' ++ ')' :: rest))) := by simp
    have et := trim_punct hw' (c := ')') (by decide) rest
    obtain ⟨t3, h3⟩ := ws_trim (w ++ (s ++ (w' ++ ')' :: rest)))
    rw [trim_ws hw, (h.starts.app _).trim] at h3
    have h4 := ty_run hr2 hc.toComp (rest := w' ++ ')' :: rest) (by simp at hs; omega) h
      ((safe_ws hw' (safe_punct (by decide) _)).ty _)
      ⟨by rw [et]; exact notHead_cons (by decide) _, .inl (by rw [et]; exact notHead_cons (by decide) _)⟩
    obtain ⟨t5, h5⟩ := ws_trim (w' ++ ')' :: rest)
    rw [et] at h5
    rw [e]
    simp only [type2, alt, pmap, h1, h2, type2Parens, delimited, preceded, terminated, chr_ok, h3, h4, h5, PR.bind]
  | @map w s g w' hw h hw' =>
    have h3 := bracket_run (o := '{') (c := '}') (rest := rest) hr2 hrg hc.toComp hc.ip (by decide) (by simp at hs; omega) hw h hw'
    simp only [List.cons_append] at h3 ⊢
    obtain ⟨⟨e1, h1⟩, e2, h2⟩ := open_err x r (c := '{') (by decide) (w ++ s ++ w' ++ ['}'] ++ rest)
    obtain ⟨e4, h4⟩ := chr_err (c := '(') (i := '{' :: (w ++ s ++ w' ++ ['}'] ++ rest)) (notHead_cons (by decide) _)
    simp only [type2, alt, pmap, h1, h2, type2Parens, type2Map, h3, PR.bind]
    simp only [delimited, preceded, h4, PR.bind]
  | @array w s g w' hw h hw' =>
    have h3 := bracket_run (o := '[') (c := ']') (rest := rest) hr2 hrg hc.toComp hc.ip (by decide) (by simp at hs; omega) hw h hw'
    simp only [List.cons_append] at h3 ⊢
    obtain ⟨⟨e1, h1⟩, e2, h2⟩ := open_err x r (c := '[') (by decide) (w ++ s ++ w' ++ [']'] ++ rest)
    obtain ⟨e4, h4⟩ := chr_err (c := '(') (i := '[' :: (w ++ s ++ w' ++ [']'] ++ rest)) (notHead_cons (by decide) _)
    obtain ⟨e5, h5⟩ := chr_err (c := '{') (i := '[' :: (w ++ s ++ w' ++ [']'] ++ rest)) (notHead_cons (by decide) _)
    simp only [type2, alt, pmap, h1, h2, type2Parens, type2Map, type2Array, h3, PR.bind]
    simp only [delimited, preceded, h4, h5, PR.bind]
  | @unwrap w s nm as hw h =>
    have h3 := hname hw (by simp at hs; omega) h (by rintro rfl; exact ha)
    have e : '~' :: w ++ s ++ rest = '~' :: (w ++ (s ++ rest)) := by simp
    rw [e]
    obtain ⟨⟨e1, h1⟩, e2, h2⟩ := open_err x r (c := '~') (by decide) (w ++ (s ++ rest))
    obtain ⟨e4, h4⟩ := chr_err (c := '(') (i := '~' :: (w ++ (s ++ rest))) (notHead_cons (by decide) _)
    obtain ⟨e5, h5⟩ := chr_err (c := '{') (i := '~' :: (w ++ (s ++ rest))) (notHead_cons (by decide) _)
    obtain ⟨e6, h6⟩ := chr_err (c := '[') (i := '~' :: (w ++ (s ++ rest))) (notHead_cons (by decide) _)
    have h7 : tag "~" ('~' :: (w ++ (s ++ rest))) = .ok (w ++ (s ++ rest)) ['~'] := tag_ok "~" ['~'] _ rfl
    obtain ⟨t8, h8⟩ := ws_trim (w ++ (s ++ rest))
    rw [trim_ws hw, (h.starts.app rest).trim] at h8
    unfold preceded at h3
    simp only [h8, PR.bind] at h3
    simp only [type2, alt, pmap, h1, h2, type2Parens, type2Map, type2Array, delimited, preceded, h4, h5, h6, h7, h8, h3,
      PR.bind]
  | @inline v w s g w' hv hw h hw' =>
    have h3 := bracket_run (o := '(') (c := ')') (rest := rest) hr2 hrg hc.toComp hc.ip (by decide) (by simp at hs; omega) hw h hw'
    have e : '&' :: v ++ ('(' :: (w ++ s ++ w') ++ [')']) ++ rest = '&' :: (v ++ ('(' :: (w ++ s ++ w') ++ [')'] ++ rest)) := by simp
    rw [e]
    have et : trim (v ++ ('(' :: (w ++ s ++ w') ++ [')'] ++ rest)) = '(' :: (w ++ s ++ w') ++ [')'] ++ rest :=
      trim_punct hv (c := '(') (by decide) _
    obtain ⟨t8, h8⟩ := ws_trim (v ++ ('(' :: (w ++ s ++ w') ++ [')'] ++ rest))
    rw [et] at h8
    generalize '(' :: (w ++ s ++ w') ++ [')'] ++ rest = q at h3 h8
    obtain ⟨⟨e1, h1⟩, e2, h2⟩ := open_err x r (c := '&') (by decide) (v ++ q)
    obtain ⟨e4, h4⟩ := chr_err (c := '(') (i := '&' :: (v ++ q)) (notHead_cons (by decide) _)
    obtain ⟨e5, h5⟩ := chr_err (c := '{') (i := '&' :: (v ++ q)) (notHead_cons (by decide) _)
    obtain ⟨e6, h6⟩ := chr_err (c := '[') (i := '&' :: (v ++ q)) (notHead_cons (by decide) _)
    obtain ⟨e9, h9⟩ : ∃ e, tag "~" ('&' :: (v ++ q)) = .err e := tag_err (by intro r e; simp at e)
    have h7 : tag "&" ('&' :: (v ++ q)) = .ok (v ++ q) ['&'] := tag_ok "&" ['&'] _ rfl
    have h10 : inParens r q = .ok rest g := h3
    simp only [type2, alt, pmap, h1, h2, type2Parens, type2Map, type2Array, delimited, preceded, h4, h5, h6, h7, h8, h9,
      h10, PR.bind]
  | @choiceify w s nm as hw h =>
    have h3 := hname hw (by simp at hs; omega) h (by rintro rfl; exact ha)
    have e : '&' :: w ++ s ++ rest = '&' :: (w ++ (s ++ rest)) := by simp
    rw [e]
    obtain ⟨⟨e1, h1⟩, e2, h2⟩ := open_err x r (c := '&') (by decide) (w ++ (s ++ rest))
    obtain ⟨e4, h4⟩ := chr_err (c := '(') (i := '&' :: (w ++ (s ++ rest))) (notHead_cons (by decide) _)
    obtain ⟨e5, h5⟩ := chr_err (c := '{') (i := '&' :: (w ++ (s ++ rest))) (notHead_cons (by decide) _)
    obtain ⟨e6, h6⟩ := chr_err (c := '[') (i := '&' :: (w ++ (s ++ rest))) (notHead_cons (by decide) _)
    obtain ⟨e9, h9⟩ : ∃ e, tag "~" ('&' :: (w ++ (s ++ rest))) = .err e := tag_err (by intro r e; simp at e)
    have h7 : tag "&" ('&' :: (w ++ (s ++ rest))) = .ok (w ++ (s ++ rest)) ['&'] := tag_ok "&" ['&'] _ rfl
    obtain ⟨t8, h8⟩ := ws_trim (w ++ (s ++ rest))
    rw [trim_ws hw, (h.starts.app rest).trim] at h8
    obtain ⟨e10, h10⟩ := inParens_err (r := r) (i := s ++ rest) (by
      refine NotHead.imp (p := fun c => ¬ EAlpha c) ?_ ?_
      · cases h with
        | plain h => cases h with | mk h _ => exact fun hn => hn h
        | generic h _ _ => cases h with | mk h _ => exact fun hn => hn h
      · rintro c rfl; unfold EAlpha; decide)
    unfold preceded at h3
    simp only [h8, PR.bind] at h3
    simp only [type2, alt, pmap, h1, h2, type2Parens, type2Map, type2Array, delimited, preceded, h4, h5, h6, h7, h8, h9,
      h10, h3, PR.bind]

/-- Parentheses around something that is not a type. -/
theorem parens_err (hr2 : r.type2 = type2 x r) {w u : List Char} (hw : WS w) (h : NotTy r (trim u)) :
    ∃ e, r.type2 ('(' :: (w ++ u)) = .err e := by
  rw [hr2]
  obtain ⟨⟨e1, h1⟩, e2, h2⟩ := open_err x r (c := '(') (by decide) (w ++ u)
  obtain ⟨t3, h3⟩ := ws_trim (w ++ u)
  rw [trim_ws hw] at h3
  have h4 : ∃ e, type2Parens r ('(' :: (w ++ u)) = .err e := by
    rcases h with ⟨e, he⟩ | ⟨r', t, h5, h6⟩
    · exact ⟨e, by simp only [type2Parens, delimited, preceded, terminated, chr_ok, h3, he, PR.bind]⟩
    · obtain ⟨t7, h7⟩ := ws_trim r'
      obtain ⟨e8, h8⟩ := chr_err h6
      exact ⟨e8, by simp only [type2Parens, delimited, preceded, terminated, chr_ok, h3, h5, h7, h8, PR.bind]⟩
  obtain ⟨e4, h4⟩ := h4
  obtain ⟨e5, h5⟩ := chr_err (c := '{') (i := '(' :: (w ++ u)) (notHead_cons (by decide) _)
  obtain ⟨e6, h6⟩ := chr_err (c := '[') (i := '(' :: (w ++ u)) (notHead_cons (by decide) _)
  obtain ⟨e7, h7⟩ : ∃ e, tag "~" ('(' :: (w ++ u)) = .err e := tag_err (by intro r e; simp at e)
  obtain ⟨e8, h8⟩ : ∃ e, tag "&" ('(' :: (w ++ u)) = .err e := tag_err (by intro r e; simp at e)
  exact ⟨e8, by
    simp only [type2, alt, pmap, h1, h2, h4, type2Map, type2Array, delimited, preceded, h5, h6, h7, h8, PR.bind]⟩

theorem notParens_run (hr2 : r.type2 = type2 x r) (hc : Comp' x r n) {s g} (rest : List Char)
    (hs : s.length ≤ n + 1) (h : GVal x true s (.parens g)) : ∃ e, r.type2 (s ++ rest) = .err e := by
  cases h with
  | @parens w s g w' hw h hw' hnt =>
    have e : '(' :: (w ++ s ++ w') ++ [')'] ++ rest = '(' :: (w ++ (s ++ (w' ++ ')' :: rest))) := by simp
    rw [e]
    exact parens_err hr2 hw (group_notTy hr2 hc.toComp (by simp at hs; omega) h
      ⟨_, _, trim_punct hw' (by decide) rest, by decide⟩ (hnt rfl))
  | @comma w s t v v' w' hw h hv hv' hw' =>
    have e : '(' :: (w ++ (s ++ (v ++ ',' :: v')) ++ w') ++ [')'] ++ rest =
        '(' :: (w ++ (s ++ (v ++ ',' :: (v' ++ (w' ++ ')' :: rest))))) := by simp
    rw [e]
    refine parens_err hr2 hw ?_
    have et := trim_punct hv (c := ',') (by decide) (v' ++ (w' ++ ')' :: rest))
    rw [(h.starts.app _).trim]
    refine .inr ⟨_, _, ty_run hr2 hc.toComp (by simp at hs; omega) h
      ((safe_ws hv (safe_punct (by decide) _)).ty _) ⟨?_, .inl ?_⟩, ?_⟩
    all_goals rw [et]; exact notHead_cons (by decide) _

theorem comp_all (hr2 : r.type2 = type2 x r) (hrg : r.group = group r) : ∀ n, Comp' x r n := by
  intro n
  induction n with
  | zero =>
    refine ⟨⟨?_, ?_⟩, ?_⟩
    · intro s t rest hs h _
      exact absurd (List.length_eq_zero_iff.1 (Nat.le_zero.1 hs)) h.ne
    · intro s g rest hs h
      exact absurd (List.length_eq_zero_iff.1 (Nat.le_zero.1 hs)) h.ne
    · intro s g w w' rest hs
      exact absurd hs (by omega)
  | succ n ih =>
    refine ⟨⟨?_, ?_⟩, ?_⟩
    · intro s t rest hs h ha
      exact type2_run hr2 hrg ih hs h ha
    · intro s g rest hs h
      exact notParens_run hr2 ih rest hs h
    · intro s g w w' rest hs hw h hw'
      exact bracket_run hr2 hrg ih.toComp ih.ip (by decide) (by omega) hw h hw'

theorem comp_rec (x : ParseExt) (n : Nat) : Comp' x (parserRec x) n :=
  comp_all parserRec_type2_eq parserRec_group_eq n

/-! ## Rules -/

/-- What stands behind a rule: another rule or nothing. -/
def RuleFollow (rest : List Char) : Prop := NotHead (fun c => ¬ EAlpha c) (trim rest)

theorem RuleFollow.ent {rest : List Char} (h : RuleFollow rest) : EntFollow rest := by
  refine ⟨h.imp ?_, .inl (h.imp ?_)⟩
  · have key : ∀ c ∈ ".:^=".toList, ¬ EAlpha c := by unfold EAlpha; decide
    exact key
  · rintro c rfl; unfold EAlpha; decide

theorem ruleVal_run {s v rest} (h : GRuleVal x true s v) (ha : AfterRuleVal v rest) (hf : RuleFollow rest) {w : List Char}
    (hw : WS w) : ∃ rest', ruleVal x ('=' :: (w ++ (s ++ rest))) = .ok rest' v ∧ Same rest rest' := by
  have hc := comp_rec x s.length
  have hr2 : (parserRec x).type2 = type2 x (parserRec x) := parserRec_type2_eq
  have h1 : tag "=" ('=' :: (w ++ (s ++ rest))) = .ok (w ++ (s ++ rest)) ['='] := tag_ok "=" ['='] _ rfl
  obtain ⟨t2, h2⟩ := ws_trim (w ++ (s ++ rest))
  have hst : Starts s := by
    cases h with
    | type h => exact h.starts
    | group h _ => exact h.starts
  rw [trim_ws hw, (hst.app rest).trim] at h2
  cases h with
  | type h =>
    have h3 := ty_run hr2 hc.toComp (Nat.le_refl _) h ha hf.ent.ty
    exact ⟨rest, by simp only [ruleVal, preceded, h1, h2, alt, pmap, h3, PR.bind], Same.refl _⟩
  | @group e h hh =>
    cases e with
    | mk o v =>
      obtain ⟨rest', h3, h4⟩ := entry_run hr2 hc.toComp hc.ip (Nat.le_refl _) h ha hf.ent
      refine ⟨rest', ?_, h4⟩
      have h5 : ∃ e, ty (parserRec x) (s ++ rest) = .err e := by
        rcases hh rfl with ⟨c, s', rfl, hcm⟩ | ⟨g, hg⟩
        · obtain ⟨e, h⟩ := type2_err (x := x) (r := parserRec x) (i := c :: s' ++ rest)
            (punct_notTypeHead (by rcases hcm with rfl | rfl | rfl <;> decide) _)
          rw [← hr2] at h
          exact ⟨e, ty_err h⟩
        · cases hg
          cases h with
          | plain h =>
            obtain ⟨e, h⟩ := hc.np rest (Nat.le_refl _) h
            exact ⟨e, ty_err h⟩
      obtain ⟨e5, h5⟩ := h5
      simp only [ruleVal, preceded, h1, h2, alt, pmap, h5, h3, PR.bind]

theorem GParams.starts {s as} (h : GParams s as) : Starts s := by
  cases h with
  | one h _ => exact h.starts.app _
  | cons h _ _ _ => exact ((h.starts.app _).app _).app _

theorem params_run : ∀ (k : Nat) {s as rest}, s.length ≤ k → GParams s as →
    ∃ t ts r1, as = String.ofList t :: ts.map String.ofList ∧ terminated ident ws (s ++ '>' :: rest) = .ok r1 t ∧
      Seps (pair (tag ",") ws) (terminated ident ws) r1 ts ('>' :: rest) ∧ r1.length ≤ (s ++ '>' :: rest).length := by
  intro k
  have hterm : ∀ {s w c u}, Ident s → WS w → c ∈ "/,)]}:^=>".toList → c ∈ "./,)]}:^=>*+?(){}[]~&".toList →
      terminated ident ws (s ++ (w ++ c :: u)) = .ok (c :: u) s := by
    intro s w c u h hw hcm hcm'
    have h1 := ident_run (r := w ++ c :: u) h (AfterIdent.end (safe_ws hw (safe_punct hcm u)).afterIdent)
    obtain ⟨t, h2⟩ := ws_trim (w ++ c :: u)
    rw [trim_punct hw hcm'] at h2
    simp only [terminated, h1, h2, PR.bind]
  induction k with
  | zero =>
    intro s as rest hk h
    exfalso
    have := List.length_eq_zero_iff.1 (Nat.le_zero.1 hk)
    cases h with
    | one h _ => simp at this; exact h.ne this.1
    | cons h _ _ _ => simp at this
  | succ k ih =>
    intro s as rest hk h
    cases h with
    | @one s w h hw =>
      refine ⟨s, [], '>' :: rest, rfl, ?_, ?_, by simp; omega⟩
      · rw [List.append_assoc]
        exact hterm h hw (by decide) (by decide)
      · obtain ⟨e, h2⟩ : ∃ e, tag "," ('>' :: rest) = .err e := tag_err (by intro r e; simp at e)
        exact .stop (e := e) (by simp only [pair, h2, PR.bind])
    | @cons s w w' a as h hw hw' h' =>
      have hsl := List.length_pos_iff.2 h.ne
      obtain ⟨t2, ts, r1, rfl, h1, h2, h3⟩ := ih (s := a) (rest := rest) (by simp at hk; omega) h'
      refine ⟨s, t2 :: ts, ',' :: (w' ++ (a ++ '>' :: rest)), rfl, ?_, ?_, by simp; omega⟩
      · have := hterm (u := w' ++ (a ++ '>' :: rest)) (c := ',') h hw (by decide) (by decide)
        simpa using this
      · have h4 : tag "," (',' :: (w' ++ (a ++ '>' :: rest))) = .ok (w' ++ (a ++ '>' :: rest)) [','] := tag_ok "," [','] _ rfl
        obtain ⟨t5, h5⟩ := ws_trim (w' ++ (a ++ '>' :: rest))
        have hst : Starts a := h'.starts
        rw [trim_ws hw', (hst.app _).trim] at h5
        exact .step (r := a ++ '>' :: rest) (b := ([','], t5)) (by simp only [pair, h4, h5, PR.bind]) (by simp; omega) h1 h3 h2

theorem optParams_run {ps names rest} (h : GOptParams ps names) (hr : NotHead (fun c => c = '<') rest) :
    ∃ o, opt genericParm (ps ++ rest) = .ok rest o ∧ (o.getD []).map String.ofList = names := by
  cases h with
  | none =>
    obtain ⟨e, h⟩ : ∃ e, tag "<" rest = .err e := tag_err (by rintro r rfl; exact hr rfl)
    exact ⟨none, by simp only [List.nil_append, opt, genericParm, delimited, preceded, pair, h, PR.bind], rfl⟩
  | @some w a as hw h =>
    obtain ⟨t, ts, r1, rfl, h1, h2, h3⟩ := params_run _ (Nat.le_refl _) (rest := rest) h
    refine ⟨some (t :: ts), ?_, by simp⟩
    have e : '<' :: w ++ (a ++ ['>']) ++ rest = '<' :: (w ++ (a ++ '>' :: rest)) := by simp
    have h4 : tag "<" ('<' :: (w ++ (a ++ '>' :: rest))) = .ok (w ++ (a ++ '>' :: rest)) ['<'] := tag_ok "<" ['<'] _ rfl
    obtain ⟨t5, h5⟩ := ws_trim (w ++ (a ++ '>' :: rest))
    have hst : Starts a := h.starts
    rw [trim_ws hw, (hst.app _).trim] at h5
    have h6 := Seps.sepList1 h1 h2
    have h7 : tag ">" ('>' :: rest) = .ok rest ['>'] := tag_ok ">" ['>'] _ rfl
    rw [e]
    simp only [opt, genericParm, delimited, preceded, terminated, pair, h4, h5, h6, h7, PR.bind]

theorem rule_run {s q rest} (h : GRule x true s q) (ha : AfterRuleVal q.val rest) (hf : RuleFollow rest) :
    ∃ rest', rule x (s ++ rest) = .ok rest' q ∧ Same rest rest' := by
  cases h with
  | @mk nm ps w w' s names v hn hp hw hw' h =>
    obtain ⟨rest', h1, h2⟩ := ruleVal_run h ha hf hw'
    refine ⟨rest', ?_, h2⟩
    have e : nm ++ ps ++ w ++ ('=' :: w') ++ s ++ rest = nm ++ (ps ++ (w ++ '=' :: (w' ++ (s ++ rest)))) := by simp
    have hsafe : Safe (w ++ '=' :: (w' ++ (s ++ rest))) := safe_ws hw (safe_punct (by decide) _)
    obtain ⟨o, h3, h4⟩ := optParams_run (rest := w ++ '=' :: (w' ++ (s ++ rest))) hp
      (NotHead.imp hsafe fun c hc => by simp [hc])
    have h5 := ident_run (r := ps ++ (w ++ '=' :: (w' ++ (s ++ rest)))) hn (by
      cases hp with
      | none => exact AfterIdent.end hsafe.afterIdent
      | some _ _ => exact notHead_cons (by unfold EAlpha Digit; decide) _)
    obtain ⟨t6, h6⟩ := ws_trim (w ++ '=' :: (w' ++ (s ++ rest)))
    rw [trim_punct hw (by decide)] at h6
    rw [e]
    simp only [rule, pmap, pair, preceded, h5, h3, h6, h1, h4, PR.bind]

theorem trim_nil : trim [] = [] := trim_noWs trivial

theorem WS.trim {w : List Char} (h : WS w) : trim w = [] := by
  have := trim_ws h []
  rwa [List.append_nil, trim_nil] at this

theorem rule_nil : ∃ e, terminated (rule x) ws [] = .err e := by
  obtain ⟨e, h⟩ := ident_err (i := []) trivial
  exact ⟨e, by simp only [terminated, rule, pmap, pair, h, PR.bind]⟩

theorem rules_run : ∀ (k : Nat) {s rs}, s.length ≤ k → GRules x true s rs →
    ∃ q qs r1, rs = q :: qs ∧ terminated (rule x) ws s = .ok r1 q ∧ Many (terminated (rule x) ws) r1 qs [] ∧
      r1.length < s.length := by
  intro k
  induction k with
  | zero =>
    intro s rs hk h
    exfalso
    have := List.length_eq_zero_iff.1 (Nat.le_zero.1 hk)
    cases h with
    | one h _ _ => simp at this; exact h.ne this.1
    | cons h _ _ _ => simp at this; exact h.ne this.1
  | succ k ih =>
    intro s rs hk h
    cases h with
    | @one s q w h hw ha =>
      obtain ⟨rest', h1, h2⟩ := rule_run h (ha rfl) (by unfold RuleFollow; rw [hw.trim]; trivial)
      obtain ⟨t3, h3⟩ := ws_trim rest'
      rw [h2.trim, hw.trim] at h3
      obtain ⟨e, h4⟩ := rule_nil (x := x)
      exact ⟨q, [], [], rfl, by simp only [terminated, h1, h3, PR.bind], .stop h4, by
        have := List.length_pos_iff.2 h.ne; simp; omega⟩
    | @cons s q w s' qs h hw h' ha =>
      obtain ⟨q2, qs2, r1, rfl, h1, h2, h3⟩ := ih (s := s') (by
        have := List.length_pos_iff.2 h.ne; simp at hk; omega) h'
      have hst : ∃ c t, s' = c :: t ∧ EAlpha c := by
        have : ∀ {s q}, GRule x true s q → ∃ c t, s = c :: t ∧ EAlpha c := by
          intro s q h
          cases h with
          | mk h _ _ _ _ => cases h with | mk h _ => exact ⟨_, _, rfl, h⟩
        cases h' with
        | one h _ _ => obtain ⟨c, t, rfl, hc⟩ := this h; exact ⟨_, _, rfl, hc⟩
        | cons h _ _ _ => obtain ⟨c, t, rfl, hc⟩ := this h; exact ⟨_, _, rfl, hc⟩
      obtain ⟨c, t, rfl, hcm⟩ := hst
      have et : trim (w ++ c :: t) = c :: t := by rw [trim_ws hw, (starter_ealpha hcm).trim]
      obtain ⟨rest', h4, h5⟩ := rule_run (rest := w ++ c :: t) h (ha rfl) (by
        unfold RuleFollow; rw [et]; exact fun h => h hcm)
      obtain ⟨t6, h6⟩ := ws_trim rest'
      rw [h5.trim, et] at h6
      refine ⟨q, q2 :: qs2, c :: t, rfl, ?_, .step h1 h3 h2, ?_⟩
      · rw [List.append_assoc]
        simp only [terminated, h4, h6, PR.bind]
      · have := List.length_pos_iff.2 h.ne
        simp
        omega

/-- The parser reads every layout as the tree it is a layout of. -/
theorem cddl_run {s c} (h : GCddl x true s c) : cddl x s = .ok [] c := by
  cases h with
  | @mk w s rs hw h =>
    obtain ⟨q, qs, r1, rfl, h1, h2, h3⟩ := rules_run _ (Nat.le_refl _) h
    obtain ⟨t4, h4⟩ := ws_trim (w ++ s)
    have hst : Starts s := by
      have : ∀ {s q}, GRule x true s q → Starts s := by
        intro s q h
        cases h with
        | mk h _ _ _ _ => exact (((h.starts.app _).app _).app _).app _
      cases h with
      | one h _ _ => exact (this h).app _
      | cons h _ _ _ => exact ((this h).app _).app _
    rw [trim_ws hw, hst.trim] at h4
    have h5 := Many.many1 h1 h2
    simp only [cddl, preceded, h4, h5, PR.bind]

theorem parseCddl_run {s c} (h : GCddl x true s c) : parseCddl x (String.ofList s) = .ok c := by
  simp only [parseCddl, allConsuming, String.toList_ofList, cddl_run h, PR.bind, List.length_nil, if_true, PR.toRes]

end Cddl
