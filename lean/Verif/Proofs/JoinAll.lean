import Verif.Proofs.Join

/-!
# White space behind punctuation: the grammar
-/

namespace Cddl

open Ast (Ty Ty1 Ty2 MemberKeyVal GrpEntVal GrpEnt Group GrpChoice RuleVal)

theorem Punct.all {c : Char} (h : Punct c) {P : Char → Prop} [DecidablePred P]
    (hP : ['(', ')', '[', ']', '{', '}', '<', '>', '"', '\'', ',', ':', '?', '^', '&', '~'].all (fun d => decide (P d)) = true) : P c := by
  have := List.all_eq_true.1 hP c h
  simpa using this

section
variable {c : Char} {r r' : List Char} {V : Bool} (hp : Punct c)
include hp

theorem punct_ealpha : ealphaChar c = false := hp.all (P := fun c => ealphaChar c = false) (by decide)
theorem punct_digit : isDigit c = false := hp.all (P := fun c => isDigit c = false) (by decide)
theorem punct_hexDigit : isHexDigit c = false := hp.all (P := fun c => isHexDigit c = false) (by decide)
theorem punct_blank : ¬ Blank c := hp.all (P := fun c => ¬ Blank c) (by decide)

/-- A tag that may end in punctuation. -/
theorem sim2_lit {s : String} (h : tameTag s = true)
    (h' : ['(', ')', '[', ']', '{', '}', '<', '>', '"', '\'', ',', ':', '?', '^', '&', '~'].all
      (fun c => decide (∀ d ∈ s.toList.dropLast, d ≠ c)) = true) : Sim2 c r r' false false true V (tag s) := by
  simp only [tameTag, List.all_eq_true, decide_eq_true_eq] at h
  exact sim2_tag h (hp.all (P := fun c => ∀ d ∈ s.toList.dropLast, d ≠ c) h')

/-- A tag without punctuation. -/
theorem sim2_litO {s : String} (h : tameTag s = true)
    (h' : ['(', ')', '[', ']', '{', '}', '<', '>', '"', '\'', ',', ':', '?', '^', '&', '~'].all
      (fun c => decide (∀ d ∈ s.toList, d ≠ c)) = true) : Sim2 c r r' false true true V (tag s) := by
  simp only [tameTag, List.all_eq_true, decide_eq_true_eq] at h
  exact sim2_tagO h (hp.all (P := fun c => ∀ d ∈ s.toList, d ≠ c) h')

omit hp in
theorem sim2_chr {d : Char} (h : d ≠ '"' ∧ d ≠ '\'' ∧ d ≠ ';' ∧ ¬ Blank d) : Sim2 c r r' false false true V (chr d) :=
  sim2_satisfy (tame_chr h)

theorem sim2_chrO {d : Char} (h : d ≠ '"' ∧ d ≠ '\'' ∧ d ≠ ';' ∧ ¬ Blank d) (h' : ¬ Punct d) :
    Sim2 c r r' false true true V (chr d) :=
  sim2_satisfyO (tame_chr h) (by
    have : c ≠ d := by rintro rfl; exact h' hp
    simpa using this)

theorem sim2_oneOf {s : String} (h : tameTag s = true)
    (h' : ['(', ')', '[', ']', '{', '}', '<', '>', '"', '\'', ',', ':', '?', '^', '&', '~'].all
      (fun c => decide (s.toList.contains c = false)) = true) : Sim2 c r r' false true true V (oneOfChars s) :=
  sim2_satisfyO (tame_oneOf h) (hp.all (P := fun c => s.toList.contains c = false) h')

theorem sim2_digit1 : Sim2 c r r' false true true V digit1 := sim2_takeWhile1 tame_digit (punct_digit hp)
theorem sim2_digit0 : Sim2 c r r' false true true V digit0 := sim2_takeWhile0 tame_digit (punct_digit hp)

theorem sim2_ident : Sim2 c r r' false true true V ident := by
  have tail : Sim2 c r r' false true true false identTail :=
    (Sim2.preceded (Sim2.optA ((sim2_oneOf hp (by decide) (by decide)).many1 (fun h => by cases h)))
      ((sim2_takeWhile1 tame_ealpha (punct_ealpha hp)).alt (sim2_digit1 hp))).recognize
  exact (Sim2.preceded (sim2_takeWhile1 tame_ealpha (punct_ealpha hp)) (tail.many0A fun h => by cases h)).recognize

theorem sim2_uint : Sim2 c r r' false true true V uint := by
  refine .alt (.pmap _ (.preceded (sim2_litO hp (by decide) (by decide)) (sim2_takeWhile1 tame_hexDigit (punct_hexDigit hp))))
    (.alt (.pmap _ (.preceded (sim2_litO hp (by decide) (by decide))
      (Sim2.recognize ((sim2_oneOf hp (by decide) (by decide)).many1 fun h => by cases h))))
    (.pmap _ (.alt (sim2_litO hp (by decide) (by decide))
      (.recognize (.pair (sim2_oneOf hp (by decide) (by decide)) (sim2_digit0 hp))))))

theorem sim2_uintU64 : Sim2 c r r' false true true V uintU64 := .mapResFail _ (sim2_uint hp)

theorem sim2_floatOrInt (x : ParseExt) : Sim2 c r r' false true true V (floatOrInt x) := by
  refine .mapResFail _ (.recognizer (.pair (.pmap _ (.pair (.optA (sim2_chrO hp (by decide) (by decide))) (sim2_uint hp)))
    (.pair (.optA (.recognize (.pair (sim2_chrO hp (by decide) (by decide)) (sim2_digit1 hp))))
      (.optA (.recognize (.pair (sim2_chrO hp (by decide) (by decide))
        (.pair (.optA (sim2_oneOf hp (by decide) (by decide))) (sim2_digit1 hp))))))))

end

theorem strEnd_suffix {f : Char → Bool} : ∀ i : List Char, ∃ a, i = a ++ strEnd f i
  | [] => ⟨[], by simp [strEnd]⟩
  | [c] => by
    rw [strEnd]
    split
    · exact ⟨[c], rfl⟩
    · exact ⟨[], rfl⟩
  | c :: d :: i => by
    rw [strEnd]
    split
    · obtain ⟨a, h⟩ := strEnd_suffix (f := f) (d :: i)
      exact ⟨c :: a, by rw [List.cons_append, ← h]⟩
    · split
      · obtain ⟨a, h⟩ := strEnd_suffix (f := f) i
        exact ⟨c :: d :: a, by rw [List.cons_append, List.cons_append, ← h]⟩
      · exact ⟨[], rfl⟩
termination_by i => i.length

/-- A literal from behind the opening quote on. -/
theorem rel2_closed {α : Type} {c0 : Char} {r r' : List Char} {V : Bool} {f : Char → Bool} {q : Char} {close : P α} {x : α}
    (hc1 : ∀ i, close (q :: i) = .ok i x) (hc2 : ∀ c i, c ≠ q → ∃ e, close (c :: i) = .err e) (hq : f q = false)
    (hb : f '\\' = false) (hqb : q ≠ '\\') {lit esc : Spot}
    (hlit : ∀ c, Spot.next lit c = if c = q then .code else if c = '\\' then esc else lit)
    (hesc : ∀ c, Spot.next esc c = lit) (h1 : lit ≠ .code) (h2 : esc ≠ .code) {t : List Char}
    (ht : t.foldl Spot.next lit = .code) (he : EndsIn c0 t) :
    Rel2 c0 r r' false true V (terminated (recognize (many0 (alt (takeWhile1 f) sesc))) close (t ++ r))
      (terminated (recognize (many0 (alt (takeWhile1 f) sesc))) close (t ++ r')) := by
  obtain ⟨c, u, e1, e2, e3⟩ := strEnd_gap hq hb hqb hlit hesc h1 h2 t ht
  obtain ⟨a, ea⟩ := strEnd_suffix (f := f) t
  rw [e1] at ea
  simp only [terminated, chars_spec hb, PR.bind, e2, List.cons_append]
  by_cases hc : c = q
  · subst hc
    rw [hc1, hc1]
    dsimp only
    rw [show c :: (u ++ r) = (c :: u) ++ r from rfl, show c :: (u ++ r') = (c :: u) ++ r' from rfl, take_gap, take_gap]
    rw [ea] at he
    exact .near u (e3 rfl) he.rest.tail (fun h => by cases h) fun _ => rfl
  · obtain ⟨e, h⟩ := hc2 c (u ++ r) hc
    obtain ⟨e', h'⟩ := hc2 c (u ++ r') hc
    rw [h, h']
    exact .err _ _

section
variable {c : Char} {r r' : List Char} {V : Bool}

theorem sim2_textLiteral (x : ParseExt) : Sim2 c r r' false false true V (textLiteral x) := by
  refine .mapResFail _ fun t ht he h0 => ?_
  simp only [delimited, preceded]
  cases t with
  | nil => cases h0 rfl
  | cons d t =>
    by_cases hc : d = '"'
    · subst hc
      rw [List.cons_append, List.cons_append, chr_close.1, chr_close.1]
      exact rel2_closed (lit := .text) (esc := .textEsc) chr_close.1 chr_close.2 (by decide) (by decide) (by decide)
        (fun c => rfl) (fun c => rfl) (by decide) (by decide) ht he.tail
    · obtain ⟨e, h⟩ := chr_close.2 d (t ++ r) hc
      obtain ⟨e', h'⟩ := chr_close.2 d (t ++ r') hc
      rw [List.cons_append, List.cons_append, h, h']
      exact .err _ _

variable (hp : Punct c)
include hp

theorem sim2_bytes {β : Type} {s : String} {close : P β} {b : β}
    (hs : ['(', ')', '[', ']', '{', '}', '<', '>', '"', '\'', ',', ':', '?', '^', '&', '~'].all
      (fun c => decide (∀ d ∈ s.toList.dropLast, d ≠ c)) = true)
    (hpl : s.toList.foldl Spot.next .code = .bytes) (hc1 : ∀ i, close ('\'' :: i) = .ok i b)
    (hc2 : ∀ c i, c ≠ '\'' → ∃ e, close (c :: i) = .err e) :
    Sim2 c r r' false false true V (delimited (tag s) bchar close) := by
  intro t ht he h0
  simp only [delimited, preceded]
  rcases tag_join (hp.all (P := fun c => ∀ d ∈ s.toList.dropLast, d ≠ c) hs) he (ne_nil h0) with ⟨t1, rfl, h⟩ | h
  · rw [h, h]
    refine rel2_closed (lit := .bytes) (esc := .bytesEsc) hc1 hc2 (by decide) (by decide) (by decide) (fun c => rfl)
      (fun c => rfl) (by decide) (by decide) ?_ he.rest
    unfold Outside at ht
    rw [foldl_next_app, hpl] at ht
    exact ht
  · obtain ⟨e, h1⟩ := h r
    obtain ⟨e', h2⟩ := h r'
    rw [h1, h2]
    exact .err _ _

theorem sim2_bytestring (x : ParseExt) : Sim2 c r r' false false true V (bytestring x) :=
  .alt (.pmap _ (.mapResFail _ (sim2_bytes hp (by decide) (by decide) tag_close.1 tag_close.2)))
    (.alt (.mapResFail _ (sim2_bytes hp (by decide) (by decide) tag_close.1 tag_close.2))
      (.mapResFail _ (sim2_bytes hp (by decide) (by decide) chr_close.1 chr_close.2)))

theorem sim2_value (x : ParseExt) : Sim2 c r r' false false true V (value x) :=
  .alt ((sim2_floatOrInt hp x).mono (V1 := V) (hV := by simp)) (.alt (.pmap _ (sim2_textLiteral x))
    (.pmap _ (sim2_bytestring hp x)))

theorem sim2_occur : Sim2 c r r' false false true true occur := by
  refine .alt (.mapRes _ (Sim2.mono (o1 := true) (.pair (.optA (sim2_uintU64 hp)) (.pair (sim2_litO hp (by decide) (by decide))
    (.optA (sim2_uintU64 hp)))))) (.alt (.pmap _ (sim2_lit hp (by decide) (by decide))) (.pmap _ (sim2_lit hp (by decide) (by decide))))

end

/-! ## The grammar -/

/-- The two texts behind the character. -/
structure Joins (c : Char) (r r' : List Char) : Prop where
  punct : Punct c
  trim : ∃ u, WsTo r u ∧ WsTo r' u

section
variable {c : Char} {r r' : List Char} {V : Bool} (g : Joins c r r')
include g

theorem sim2_ws : Sim2 c r r' true true false false ws := by
  intro t ht he h0
  obtain ⟨u, h1, h2⟩ := g.trim
  rcases ht.white with hw | ⟨w, v, rfl, hw, hv, hs⟩
  · obtain ⟨a, e1⟩ := (hw.to h1).ws
    obtain ⟨b, e2⟩ := (hw.to h2).ws
    rw [e1, e2]
    exact .far u rfl fun h => by cases h
  · by_cases hv0 : v = []
    · subst hv0
      rw [List.append_nil]
      obtain ⟨a, e1⟩ := (hw.to h1).ws
      obtain ⟨b, e2⟩ := (hw.to h2).ws
      rw [e1, e2]
      exact .far u rfl fun h => by cases h
    · obtain ⟨a, e1⟩ := (hw.to (hs r)).ws
      obtain ⟨b, e2⟩ := (hw.to (hs r')).ws
      rw [List.append_assoc, List.append_assoc, e1, e2]
      exact .near v hv he.rest (fun _ => hv0) fun h => by cases h

/-- The flags of most of the parsers. -/
abbrev Sim3 (c : Char) (r r' : List Char) (o : Bool) {α : Type} (p : P α) : Prop := Sim2 c r r' false o false true p

theorem sim2_lit' {s : String} (h : tameTag s = true)
    (h' : ['(', ')', '[', ']', '{', '}', '<', '>', '"', '\'', ',', ':', '?', '^', '&', '~'].all
      (fun c => decide (∀ d ∈ s.toList.dropLast, d ≠ c)) = true) : Sim2 c r r' false false false V (tag s) :=
  (sim2_lit (V := V) g.punct h h').mono (hV := by simp)
theorem sim2_litO' {s : String} (h : tameTag s = true)
    (h' : ['(', ')', '[', ']', '{', '}', '<', '>', '"', '\'', ',', ':', '?', '^', '&', '~'].all
      (fun c => decide (∀ d ∈ s.toList, d ≠ c)) = true) : Sim2 c r r' false true false V (tag s) :=
  (sim2_litO (V := V) g.punct h h').mono (hV := by simp)
omit g in
theorem sim2_chr' {d : Char} (h : d ≠ '"' ∧ d ≠ '\'' ∧ d ≠ ';' ∧ ¬ Blank d) : Sim2 c r r' false false false V (chr d) :=
  (sim2_chr (V := V) h).mono (hV := by simp)
theorem sim2_ident' : Sim2 c r r' false true false V ident := (sim2_ident (V := V) g.punct).mono (hV := by simp)

theorem sim2_slash : Sim2 c r r' true true false false slash :=
  (sim2_ws g).preceded ((sim2_litO' g (by decide) (by decide)).terminated (sim2_ws g))
theorem sim2_comma : Sim2 c r r' false true false false (pair (tag ",") ws) :=
  (sim2_lit' g (by decide) (by decide)).pair (sim2_ws g)

theorem sim2_optcom : Sim2 c r r' true true false V optcom := by
  have : Sim2 c r r' true true false false (pair ws (opt (pair (tag ",") ws))) := (sim2_ws g).pair (sim2_comma g).optA
  exact this.const ()

/-- The recursive parsers do the same on both texts. -/
structure PRec.Sim2 (c : Char) (r r' : List Char) (R : PRec) : Prop where
  type2 : Sim3 c r r' false R.type2
  group : Sim3 c r r' true R.group

variable {R : PRec} (h : R.Sim2 c r r') (hT : R.Takes)
include h

theorem sim2_type1 : Sim3 c r r' false (type1 R) := by
  have op : Sim3 c r r' true (alt (tag "...") (alt (tag "..") (preceded (tag ".") ident))) :=
    .alt (sim2_litO' g (by decide) (by decide)) (.alt (sim2_litO' g (by decide) (by decide))
      ((sim2_litO' g (by decide) (by decide)).preceded (sim2_ident' g)))
  exact .pmap _ (h.type2.pair (.optB ((sim2_ws g).preceded (op.pair ((sim2_ws g).preceded h.type2)))))

theorem sim2_ty : Sim3 c r r' false (ty R) := (sim2_type1 g h).sepList1 (sim2_slash g) fun _ => takes_slash

theorem sim2_nameGeneric : Sim3 c r r' false (nameGenericP R) := by
  have items : Sim3 c r r' true (sepList1 (pair (tag ",") ws) (terminated (type1 R) ws)) :=
    ((sim2_type1 g h).terminated (sim2_ws g)).sepList1 (sim2_comma g) fun _ => takes_comma
  have op : Sim2 c r r' false true false false (pair (tag "<") ws) := (sim2_lit' g (by decide) (by decide)).pair (sim2_ws g)
  exact .pmap _ ((sim2_ident' g).pair (.optA (op.preceded (items.terminated (sim2_lit' g (by decide) (by decide))))))

omit h in
theorem sim2_brackets {α : Type} {o : Bool} {d e : Char} {p : P α} (hc : d ≠ '"' ∧ d ≠ '\'' ∧ d ≠ ';' ∧ ¬ Blank d)
    (hd : e ≠ '"' ∧ e ≠ '\'' ∧ e ≠ ';' ∧ ¬ Blank e) (hp : Sim3 c r r' o p) :
    Sim3 c r r' false (delimited (chr d) (delimited ws p ws) (chr e)) := by
  have inner : Sim2 c r r' true true false true (delimited ws p ws) :=
    (sim2_ws g).preceded (hp.terminated (sim2_ws g) (by simp))
  exact (sim2_chr' hc).preceded (inner.terminated (sim2_chr' hd))

theorem sim2_memberkeyTail : Sim3 c r r' false (memberkeyTail R) :=
  .preceded (.pair (sim2_lit' g (by decide) (by decide)) (sim2_ws g)) (sim2_ty g h)

theorem sim2_arrowTail : Sim3 c r r' false (arrowTail R) :=
  .pair (.optA ((sim2_lit' g (by decide) (by decide)).terminated (sim2_ws g)))
    ((sim2_lit' g (by decide) (by decide)).preceded ((sim2_ws g).preceded (sim2_ty g h)))

include hT in
theorem sim2_memberRest (first : Ty1) : Sim3 c r r' false (memberRest R first) := fun t ht he h0 =>
  (sim2_arrowTail g h t ht he h0).ifOk (fun t1 a b ht he h0 e => .near t1 ht he h0 fun _ => by rw [e rfl])
    (fun hl k a b e => .far k hl fun _ => by rw [e rfl])
    ((((sim2_slash g).preceded (sim2_type1 g h)).many0B
        (fun _ => (takes_slash.preceded (takes_type1 hT)).weak (by omega)) t ht he h0).ifOk
      (fun t1 a b ht he h0 e => .near t1 ht he h0 fun _ => by rw [e rfl]) (fun hl k a b e => .far k hl fun _ => by rw [e rfl])
      (.err _ _))

include hT in
theorem sim2_grpentMember : Sim3 c r r' false (grpentMember R) := fun t ht he h0 => by
  refine Rel2.bind ((sim2_type1 g h).terminated (sim2_ws g) (by rfl) t ht he h0) (fun t1 a b ht he h0 e => ?_) fun hl k a b e => ?_
  · rw [e rfl]
    have h0 : t1 = [] → false = true := fun e => absurd e (h0 rfl)
    have tail := (sim2_memberkeyTail g h t1 ht he h0).ifOk (W := true) (f := fun i'' t => assembleBasicMember b t i'')
      (g := fun i'' t => assembleBasicMember b t i'')
      (fun t1 c d ht he h0 e => by
        rw [e rfl]
        simp only [assembleBasicMember]
        split
        · exact .near t1 ht he h0 fun _ => rfl
        · split
          · exact .near t1 ht he h0 fun _ => rfl
          · exact .fail _ _
        · exact .panic)
      (fun hl k c d e => by rw [e rfl]; exact .same hl) (sim2_memberRest g h hT b t1 ht he h0)
    split
    · exact tail
    · exact tail
    · exact sim2_memberRest g h hT b t1 ht he h0
  · rw [e rfl]
    exact .same hl

include hT in
theorem sim2_grpent : Sim3 c r r' false (grpent R) := by
  have occ : Sim3 c r r' true (opt (terminated occur ws)) :=
    .optA (Sim2.terminated (o := false) ((sim2_occur g.punct).mono) (sim2_ws g))
  exact .pmap _ (occ.pair (.alt (sim2_grpentMember g h hT)
    (.alt (.pmap _ ((sim2_ident' (V := true) g).mono)) (.pmap _ (sim2_brackets g (by decide) (by decide) h.group)))))

include hT in
theorem sim2_grpchoice : Sim3 c r r' true (grpchoice R) := by
  refine .many0A ((sim2_grpent g h hT).terminated (sim2_optcom g)) fun _ => (takes_grpent hT).terminated (m := 0) (.pmap _ ?_)
  exact takes_ws.pair (m := 0) (.opt (n := 1) takes_comma)

include hT in
theorem sim2_group : Sim3 c r r' true (group R) := by
  have sep : Sim2 c r r' true true false false (delimited ws (tag "//") ws) :=
    (sim2_ws g).preceded ((sim2_litO' g (by decide) (by decide)).terminated (sim2_ws g))
  refine .pmap _ ((sim2_grpchoice g h hT).pair (.many0A (Sim2.mono (s1 := true) (sep.preceded (sim2_grpchoice g h hT))) fun _ => ?_))
  refine (Takes.preceded (n := 1) (m := 0) ?_ (takes_grpchoice hT)).weak (by omega)
  exact (takes_ws.preceded ((takes_tag (t := "//") (by decide)).terminated takes_ws)).weak (by omega)

theorem sim2_type2 (x : ParseExt) : Sim3 c r r' false (type2 x R) := by
  refine .alt (.pmap _ ((sim2_value (V := true) g.punct x).mono)) (.alt (.pmap _ (sim2_nameGeneric g h))
    (.alt (.pmap _ (sim2_brackets g (by decide) (by decide) (sim2_ty g h)))
    (.alt (.pmap _ (sim2_brackets g (by decide) (by decide) h.group)) (.alt (.pmap _ (sim2_brackets g (by decide) (by decide) h.group))
    (.alt (.pmap _ ((sim2_lit' g (by decide) (by decide)).preceded ((sim2_ws g).preceded (sim2_nameGeneric g h))))
    (.alt (.pmap _ ((sim2_lit' g (by decide) (by decide)).preceded ((sim2_ws g).preceded
      (sim2_brackets g (by decide) (by decide) h.group))))
      (.pmap _ ((sim2_lit' g (by decide) (by decide)).preceded ((sim2_ws g).preceded (sim2_nameGeneric g h))))))))))

end

theorem sim2_parsers {c : Char} {r r' : List Char} (g : Joins c r r') (x : ParseExt) : ∀ k, (parsers x k).Sim2 c r r'
  | 0 => ⟨fun _ _ _ _ => .oofL _, fun _ _ _ _ => .oofL _⟩
  | k + 1 => ⟨sim2_type2 g (sim2_parsers g x k) x, sim2_group g (sim2_parsers g x k) (takes_parsers x k)⟩

theorem sim2_parserRec {c : Char} {r r' : List Char} (g : Joins c r r') (x : ParseExt) : (parserRec x).Sim2 c r r' := by
  constructor
  · intro t ht he h0
    have := (sim2_parsers g x (2 * (t ++ r).length + 2 * (t ++ r').length + 2)).type2 t ht he h0
    rwa [(parsers_enough (by omega)).1, (parsers_enough (by omega)).1] at this
  · intro t ht he h0
    have := (sim2_parsers g x (2 * (t ++ r).length + 2 * (t ++ r').length + 2)).group t ht he h0
    rwa [(parsers_enough (by omega)).2, (parsers_enough (by omega)).2] at this

theorem sim2_rule {c : Char} {r r' : List Char} (g : Joins c r r') (x : ParseExt) : Sim3 c r r' false (rule x) := by
  have hR := sim2_parserRec g x
  have hT := takes_parserRec x
  have op : Sim2 c r r' false true false false (pair (tag "<") ws) := (sim2_lit' g (by decide) (by decide)).pair (sim2_ws g)
  have items : Sim3 c r r' true (sepList1 (pair (tag ",") ws) (terminated ident ws)) :=
    ((sim2_ident' g).terminated (sim2_ws g)).sepList1 (sim2_comma g) fun _ => takes_comma
  exact .pmap _ (.pair (o := false) (.pair (sim2_ident' g) (.optA (op.preceded (items.terminated
    (sim2_lit' g (by decide) (by decide)))))) ((sim2_ws g).preceded ((sim2_litO' g (by decide) (by decide)).preceded
    ((sim2_ws g).preceded (.alt (.pmap _ (sim2_ty g hR)) (.pmap _ (sim2_grpent g hR hT)))))))

theorem sim2_cddl {c : Char} {r r' : List Char} (g : Joins c r r') (x : ParseExt) : Sim3 c r r' true (cddl x) :=
  Sim2.mono (s1 := true) ((sim2_ws g).preceded (((sim2_rule g x).terminated (sim2_ws g)).many1
    fun _ => (takes_rule x).terminated (m := 0) takes_ws))

theorem parse_join {c : Char} {r r' : List Char} (g : Joins c r r') (x : ParseExt) {a : List Char} (ha : Outside (a ++ [c]))
    (d : Ast.Cddl) (h : parseCddl x (String.ofList (a ++ [c] ++ r)) = .ok d) :
    parseCddl x (String.ofList (a ++ [c] ++ r')) = .ok d := by
  rw [parseCddl_ok_iff] at h ⊢
  have hs := sim2_cddl g x (a ++ [c]) ha (fun b e h => by have := List.append_inj_right' h rfl; cases this; rfl) (by simp)
  rw [h] at hs
  generalize hy : cddl x (a ++ [c] ++ r') = y at hs
  generalize hk : ([] : List Char) = k at hs
  cases hs with
  | near t _ _ h0 e => exact absurd (List.append_eq_nil_iff.1 hk.symm).1 (h0 rfl)
  | far _ _ e => rw [← hk, e rfl]
  | oofR => exact absurd hy (cddl_not_oof _)

end Cddl
