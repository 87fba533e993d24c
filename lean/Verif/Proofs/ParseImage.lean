import Verif.Proofs.Print

/-!
# Every parsed tree can be printed

The only thing that does not show in the grammar is that no successful parse contains a bare group name: when
`grpent_val` falls back to one, what follows can never be read.
-/

namespace Cddl

open Ast (Ty Ty1 Ty2 MemberKeyVal GrpEntVal GrpEnt Group GrpChoice RuleVal)

/-- Whenever the parser succeeds, the rest and the result are related. -/
def Post {α : Type} (p : P α) (Q : List Char → α → Prop) : Prop := ∀ i r a, p i = .ok r a → Q r a

section combinators

variable {α β γ : Type} {p : P α} {q : P β}

theorem Post.imp {Q Q' : List Char → α → Prop} (h : Post p Q) (hi : ∀ r a, Q r a → Q' r a) : Post p Q' :=
  fun i r a e => hi r a (h i r a e)

theorem pbind_ok {y : PR α} {f : List Char → α → PR β} {r : List Char} {b : β} (h : y.bind f = .ok r b) :
    ∃ r' a, y = .ok r' a ∧ f r' a = .ok r b := by
  cases y with
  | ok r' a => exact ⟨r', a, rfl, h⟩
  | _ => cases h

theorem post_pmap {f : α → β} {Q : List Char → β → Prop} (h : Post p fun r a => Q r (f a)) : Post (pmap f p) Q := by
  intro i r b e
  obtain ⟨r', a, h1, h2⟩ := pbind_ok e
  cases h2
  exact h i r a h1

theorem post_pair {A : α → Prop} {B : List Char → β → Prop} (hp : Post p fun _ => A) (hq : Post q B) :
    Post (pair p q) fun r c => A c.1 ∧ B r c.2 := by
  intro i r b e
  obtain ⟨r', a, h1, h2⟩ := pbind_ok e
  obtain ⟨r'', b', h3, h4⟩ := pbind_ok h2
  cases h4
  exact ⟨hp i r' a h1, hq r' r b' h3⟩

theorem post_preceded {B : List Char → β → Prop} (hq : Post q B) : Post (preceded p q) B := by
  intro i r b e
  obtain ⟨r', a, h1, h2⟩ := pbind_ok e
  exact hq r' r b h2

theorem post_terminated {A : α → Prop} (hp : Post p fun _ => A) : Post (terminated p q) fun _ => A := by
  intro i r b e
  obtain ⟨r', a, h1, h2⟩ := pbind_ok e
  obtain ⟨r'', b', h3, h4⟩ := pbind_ok h2
  cases h4
  exact hp i r' b h1

theorem post_opt {A : α → Prop} (hp : Post p fun _ => A) : Post (opt p) fun _ o => ∀ a, o = some a → A a := by
  intro i r o e
  unfold opt at e
  cases h : p i with
  | ok r' a => rw [h] at e; cases e; intro b hb; cases hb; exact hp i r a h
  | err _ => rw [h] at e; cases e; intro b hb; cases hb
  | _ => rw [h] at e; cases e

theorem post_alt {p q : P α} {Q : List Char → α → Prop} (hp : Post p Q) (hq : Post q Q) : Post (alt p q) Q := by
  intro i r a e
  unfold alt at e
  cases h : p i with
  | ok r' a => rw [h] at e; cases e; exact hp i _ _ h
  | err _ => rw [h] at e; exact hq i r a e
  | _ => rw [h] at e; cases e

theorem post_many0 {A : α → Prop} (hp : Post p fun _ => A) : Post (many0 p) fun _ as => ∀ a ∈ as, A a := by
  have key : ∀ n, Post (many0Loop p n) fun _ as => ∀ a ∈ as, A a := by
    intro n
    induction n with
    | zero => intro i r as e; cases e
    | succ n ih =>
      intro i r as e
      simp only [many0Loop] at e
      cases h : p i with
      | ok r' a =>
        rw [h] at e
        dsimp only at e
        split at e
        · cases e
        · obtain ⟨r'', b', h3, h4⟩ := pbind_ok e
          cases h4
          intro c hc
          rcases List.mem_cons.1 hc with rfl | hc
          · exact hp i r' _ h
          · exact ih r' _ b' h3 c hc
      | err _ => rw [h] at e; cases e; simp
      | _ => rw [h] at e; cases e
  exact fun i => key _ i

theorem post_sepList1 {A : α → Prop} (hp : Post p fun _ => A) :
    Post (sepList1 q p) fun _ as => as ≠ [] ∧ ∀ a ∈ as, A a := by
  have key : ∀ n, Post (sepLoop q p n) fun _ as => ∀ a ∈ as, A a := by
    intro n
    induction n with
    | zero => intro i r as e; cases e
    | succ n ih =>
      intro i r as e
      simp only [sepLoop] at e
      cases h : q i with
      | ok r' a =>
        rw [h] at e
        dsimp only at e
        split at e
        · cases e
        · cases h' : p r' with
          | ok r1 a =>
            rw [h'] at e
            obtain ⟨r'', b', h3, h4⟩ := pbind_ok e
            cases h4
            intro c hc
            rcases List.mem_cons.1 hc with rfl | hc
            · exact hp r' r1 _ h'
            · exact ih r1 _ b' h3 c hc
          | err _ => rw [h'] at e; cases e; simp
          | _ => rw [h'] at e; cases e
      | err _ => rw [h] at e; cases e; simp
      | _ => rw [h] at e; cases e
  intro i r as e
  obtain ⟨r', a, h1, h2⟩ := pbind_ok e
  obtain ⟨r'', b', h3, h4⟩ := pbind_ok h2
  cases h4
  refine ⟨by simp, fun c hc => ?_⟩
  rcases List.mem_cons.1 hc with rfl | hc
  · exact hp i r' _ h1
  · exact key _ r' _ b' h3 c hc

theorem post_sound {R : List Char → List Char → List Char → Prop} {G : List Char → α → Prop} (h : ∀ n, ParsesTo R n p G) :
    Post p fun _ a => ∃ s, G s a := by
  intro i r a e
  have := h i.length i (Nat.le_refl _)
  rw [e] at this
  obtain ⟨s, -, hs⟩ := this
  exact ⟨s, hs⟩

end combinators

variable {x : ParseExt} {p : PrintExt}

theorem ValueText.ok {st : Bool} (hw : Writes x p) {s : List Char} {v : Ast.Value} (h : ValueText x st s v) : OkValue x p v := by
  have hfalse : ValueText x false s v := by
    have hq : ∀ {q s}, Quoted st q s → Quoted false q s := by
      intro q s h
      induction h with
      | nil => exact .nil
      | plain h h1 h2 _ ih => exact .plain ⟨h.1, h.2.1, h.2.2.1, by simp⟩ h1 h2 ih
      | esc _ ih => exact .esc ih
    cases h with
    | uint h1 h2 => exact .uint h1 h2
    | nint h1 h2 => exact .nint h1 h2
    | float h1 h2 h3 h4 h5 h6 h7 => exact .float h1 h2 (by simp) h4 h5 h6 h7
    | text h1 h2 => exact .text (hq h1) h2
    | bytes h1 h2 => exact .bytes (hq h1) h2
    | hex h1 h2 => exact .hex (hq h1) h2
    | base64 h1 h2 => exact .base64 (hq h1) h2
  clear h
  cases v with
  | uint n => cases hfalse with | uint _ h => exact h
  | nint i =>
    cases hfalse with
    | @nint s n _ h =>
      have h : n < 9223372036854775808 := h
      refine ⟨?_, by omega⟩
      show -9223372036854775808 < -(n : Int)
      omega
  | float f => exact hw.float _ _ hfalse
  | text t => exact hw.text _ _ hfalse
  | bytes b => trivial

theorem OccurText.ok {s o} (h : OccurText s o) : OkOccur o := by
  cases h with
  | lower _ h => exact ⟨h, by decide⟩
  | upper _ h => exact ⟨by decide, h⟩
  | both _ h _ h' => exact ⟨h, h'⟩
  | _ => trivial

theorem okTy1s_of {ts : List Ty1} (h : ∀ t ∈ ts, OkTy1 x p t) : OkTy1s x p ts := by
  induction ts with
  | nil => simp only [OkTy1s]
  | cons t ts ih => simp only [OkTy1s]; exact ⟨h t (by simp), ih fun u hu => h u (by simp [hu])⟩

theorem post_ident : Post ident fun _ a => Ident a := by
  refine (post_sound fun n => sound_ident (n := n)).imp ?_
  rintro r a ⟨s, rfl, h⟩
  exact h

/-! ## Types -/

variable {rec : PRec}

theorem post_rangeOrControlOp (ht : Post rec.type2 fun _ t => OkTy2 x p t) : Post (rangeOrControlOp rec) fun _ c =>
    ((c.1 = "..".toList ∨ c.1 = "...".toList) ∨ Ident c.1) ∧ OkTy2 x p c.2 := by
  refine post_pair (A := fun c => (c = "..".toList ∨ c = "...".toList) ∨ Ident c) (post_alt (fun i r a e => ?_)
    (post_alt (fun i r a e => ?_) (post_preceded (post_ident.imp fun _ _ h => .inr h)))) (post_preceded ht)
  · obtain ⟨s, h, rfl⟩ := (post_sound fun n => sound_tag (n := n) exactRel "...") _ _ _ e
    exact .inl (.inr rfl)
  · obtain ⟨s, h, rfl⟩ := (post_sound fun n => sound_tag (n := n) exactRel "..") _ _ _ e
    exact .inl (.inl rfl)

theorem post_type1 (ht : Post rec.type2 fun _ t => OkTy2 x p t) : Post (type1 rec) fun _ t => OkTy1 x p t := by
  intro i r t e
  obtain ⟨r0, ⟨a, o⟩, h1, h2⟩ := pbind_ok e
  cases h2
  obtain ⟨r', a', h3, h4⟩ := pbind_ok h1
  obtain ⟨r'', b', h5, h6⟩ := pbind_ok h4
  cases h6
  have ha := ht _ _ _ h3
  cases o with
  | none => simpa only [makeType1, OkTy1] using ha
  | some ob =>
    obtain ⟨op, b⟩ := ob
    have ho := post_opt (post_preceded (post_rangeOrControlOp ht)) _ _ _ h5 _ rfl
    simp only [makeType1]
    split
    · simp only [OkTy1]; exact ⟨ha, ho.2⟩
    · split
      · simp only [OkTy1]; exact ⟨ha, ho.2⟩
      · simp only [OkTy1]
        refine ⟨ha, ho.2, ?_⟩
        rcases ho.1 with (h | h) | h
        · contradiction
        · contradiction
        · simpa using h

theorem post_ty (ht : Post rec.type2 fun _ t => OkTy2 x p t) : Post (ty rec) fun _ t => t ≠ [] ∧ OkTy1s x p t :=
  (post_sepList1 (post_type1 ht)).imp fun _ _ h => ⟨h.1, okTy1s_of h.2⟩

theorem post_name (ht : Post rec.type2 fun _ t => OkTy2 x p t) :
    Post (nameGenericP rec) fun _ c => Ident c.1.toList ∧ OkTy1s x p c.2 := by
  refine post_pmap ((post_pair post_ident (post_opt (A := fun as => OkTy1s x p as) (post_preceded (post_terminated
    ((post_sepList1 (post_terminated (post_type1 ht))).imp fun _ _ h => okTy1s_of h.2))))).imp ?_)
  rintro r ⟨n, o⟩ ⟨h1, h2⟩
  refine ⟨by simpa using h1, ?_⟩
  cases o with
  | none => simp only [Option.getD_none, OkTy1s]
  | some as => exact h2 as rfl

/-! ## Group entries -/

theorem ifOk_ok {α β : Type} {y : PR α} {f : List Char → α → PR β} {g : PR β} {r : List Char} {b : β}
    (h : ifOk y f g = .ok r b) : (∃ r' a, y = .ok r' a ∧ f r' a = .ok r b) ∨ g = .ok r b := by
  cases y with
  | ok r' a => exact .inl ⟨r', a, rfl, h⟩
  | err _ => exact .inr h
  | fail _ => exact .inr h
  | _ => cases h

theorem post_member (ht : Post rec.type2 fun _ t => OkTy2 x p t) : Post (grpentMember rec) fun _ v => OkVal x p v := by
  intro i r v e
  obtain ⟨i', first, h1, h2⟩ := pbind_ok e
  have hf := post_terminated (post_type1 ht) _ _ _ h1
  have hrest : memberRest rec first i' = .ok r v → OkVal x p v := by
    intro h
    rcases ifOk_ok h with ⟨r', ⟨o, t⟩, h3, h4⟩ | h
    · cases h4
      have := (post_pair (A := fun _ => True) (fun _ _ _ _ => trivial) (post_preceded (post_preceded (post_ty ht)))) _ _ _ h3
      simp only [OkVal]
      exact ⟨hf, this.2⟩
    · rcases ifOk_ok h with ⟨r', ts, h3, h4⟩ | h
      · cases h4
        have := post_many0 (post_preceded (post_type1 ht)) _ _ _ h3
        simp only [OkVal, OkTy1s]
        exact ⟨by simp, hf, okTy1s_of this⟩
      · cases h
  have htail : (ifOk (memberkeyTail rec i') (fun i'' t => assembleBasicMember first t i'') (memberRest rec first i')) = .ok r v →
      OkVal x p v := by
    intro h
    rcases ifOk_ok h with ⟨r', t, h3, h4⟩ | h
    · have := (post_preceded (post_ty ht)) _ _ _ h3
      unfold assembleBasicMember at h4
      split at h4
      · cases h4
        simp only [OkTy1, OkTy2] at hf
        simp only [OkVal]
        exact ⟨trivial, hf, this⟩
      · split at h4
        · cases h4
          simp only [OkTy1, OkTy2] at hf
          simp only [OkVal]
          exact ⟨trivial, hf.1, this⟩
        · cases h4
      · cases h4
    · exact hrest h
  split at h2
  · exact htail h2
  · exact htail h2
  · exact hrest h2

/-! ## Where a bare group name leads -/

/-- Nothing can be read here. -/
def Dead (r : List Char) : Prop :=
  ∃ c u, r = c :: u ∧ (c = '.' ∨ c = '<' ∨ c = '\'' ∨ (c = '/' ∧ NotHead (fun d => d = '/') u))

theorem Dead.not {r : List Char} (h : Dead r) {q : Char → Prop} (hq : ¬ q '.' ∧ ¬ q '<' ∧ ¬ q '\'' ∧ ¬ q '/') : NotHead q r := by
  obtain ⟨c, u, rfl, rfl | rfl | rfl | ⟨rfl, -⟩⟩ := h
  · exact hq.1
  · exact hq.2.1
  · exact hq.2.2.1
  · exact hq.2.2.2

theorem Dead.noWs {r : List Char} (h : Dead r) : NoWs r := h.not (by unfold Blank; decide)

theorem Dead.trim {r : List Char} (h : Dead r) : trim r = r := trim_noWs h.noWs

theorem opt_not_err {α : Type} {p : P α} {i : List Char} {e : ParseError} : opt p i ≠ .err e := by
  unfold opt
  cases p i <;> simp

theorem opt_none {α : Type} {p : P α} {i r : List Char} (h : opt p i = .ok r none) : r = i := by
  unfold opt at h
  revert h
  cases p i <;> simp
  rintro rfl; rfl

theorem opt_some {α : Type} {p : P α} {i r : List Char} {a : α} (h : opt p i = .ok r (some a)) : p i = .ok r a := by
  unfold opt at h
  revert h
  cases p i <;> simp

theorem palt_ok {α : Type} {p q : P α} {i r : List Char} {a : α} (h : alt p q i = .ok r a) :
    p i = .ok r a ∨ ((∃ e, p i = .err e) ∧ q i = .ok r a) := by
  unfold alt at h
  cases hp : p i with
  | err e => rw [hp] at h; exact .inr ⟨⟨e, rfl⟩, h⟩
  | _ => rw [hp] at h; exact .inl h

theorem alt_err {α : Type} {p q : P α} {i : List Char} {e : ParseError} (h : p i = .err e) : alt p q i = q i := by
  unfold alt; rw [h]

theorem tag_head {c : Char} {t : String} {i r a : List Char} (ht : t.toList.head? = some c) (h : tag t i = .ok r a) :
    ∃ u, i = c :: u := by
  have := sound_tag (n := i.length) exactRel t i (Nat.le_refl _)
  rw [h] at this
  obtain ⟨s, h1, h2, rfl⟩ := this
  cases h2
  unfold Exact at h1
  cases ht' : t.toList with
  | nil => rw [ht'] at ht; cases ht
  | cons d u => rw [ht'] at ht h1; cases ht; exact ⟨u ++ r, h1⟩

theorem memberRest_err {first : Ty1} {i : List Char} {e : ParseError} {rec' : PRec} (hrec : rec.type2 = type2 x rec')
    (hws : trim i = i) (h : memberRest rec first i = .err e) :
    (∃ u, i = '/' :: u ∧ NotHead (fun d => d = '/') u) ∧ ∀ first', memberRest rec first' i = .err e := by
  have hwi : ∃ t, ws i = .ok i t := by
    obtain ⟨t, h⟩ := ws_trim i
    rw [hws] at h
    exact ⟨t, h⟩
  obtain ⟨t, hwi⟩ := hwi
  have hfirst : ∀ e', preceded slash (type1 rec) i ≠ .err e' := by
    intro e' he
    have : many0 (preceded slash (type1 rec)) i = .ok i [] := by
      simp only [many0, many0Loop, he]
    unfold memberRest at h
    rw [this] at h
    revert h
    cases arrowTail rec i <;> simp [ifOk]
  refine ⟨?_, fun first' => ?_⟩
  · by_cases hs : ∃ u, i = '/' :: u
    · obtain ⟨u, rfl⟩ := hs
      refine ⟨u, rfl, ?_⟩
      cases u with
      | nil => trivial
      | cons d u =>
        rintro rfl
        have h1 : tag "/" ('/' :: '/' :: u) = .ok ('/' :: u) ['/'] := tag_ok "/" ['/'] _ rfl
        obtain ⟨t2, h2⟩ := ws_trim ('/' :: u)
        rw [trim_noWs (noWs_punct (by decide) u)] at h2
        obtain ⟨e3, h3⟩ := type2_err (x := x) (r := rec') (i := '/' :: u) (notHead_cons (p := TypeHead)
          (by unfold TypeHead Digit EAlpha; decide) u)
        exact hfirst e3 (by
          simp only [preceded, slash, delimited, terminated, hwi, h1, h2, type1, pmap, pair, hrec, h3, PR.bind])
    · exfalso
      obtain ⟨e1, h1⟩ : ∃ e, tag "/" i = .err e := by
        refine tag_err ?_
        cases i with
        | nil => simp
        | cons c u =>
          intro r hr
          simp at hr
          exact hs ⟨u, by rw [hr.1]⟩
      exact hfirst e1 (by simp only [preceded, slash, delimited, terminated, hwi, h1, PR.bind])
  · unfold memberRest at h ⊢
    revert h
    cases arrowTail rec i <;> simp [ifOk]
    all_goals cases many0 (preceded slash (type1 rec)) i <;> simp

theorem ident_head {i r s : List Char} (h : ident i = .ok r s) : ∃ c u, i = c :: u ∧ EAlpha c ∧ i = s ++ r := by
  have := sound_ident (n := i.length) i (Nat.le_refl _)
  rw [h] at this
  obtain ⟨s', h1, rfl, h2⟩ := this
  unfold Exact at h1
  cases h2 with
  | @mk c t hc _ => exact ⟨c, t ++ r, h1, hc, h1⟩

theorem mapResFail_ok {α β : Type} {p : P α} {f : α → Except ParseError β} {i r : List Char} {b : β}
    (h : mapResFail p f i = .ok r b) : ∃ a, p i = .ok r a := by
  unfold mapResFail at h
  obtain ⟨r', a, h1, h2⟩ := pbind_ok h
  split at h2
  · cases h2; exact ⟨a, h1⟩
  · cases h2

/-- A literal that begins like an identifier is a byte string, and the part from the quote on is a literal as well. -/
theorem value_identLike {i r s r1 : List Char} {v : Ast.Value} (hi : ident i = .ok r s) (hv : value x i = .ok r1 v) :
    ∃ rest c r4, r = '\'' :: rest ∧ bchar rest = .ok r4 c ∧ r4 = '\'' :: r1 := by
  obtain ⟨c, u, hcu, hc, hsr⟩ := ident_head hi
  have hn : ∀ q : Char → Prop, (∀ d, EAlpha d → ¬ q d) → NotHead q i := by
    intro q hq
    rw [hcu]
    exact hq c hc
  have hd : ∀ d : Char, EAlpha d → ¬ (Digit d ∨ d = '-') := by
    intro d hd h
    unfold EAlpha Digit at *
    have : ∀ a b : Char, a ≤ b ↔ a.toNat ≤ b.toNat := fun a b => Iff.rfl
    simp only [this] at *
    rcases h with h | rfl
    · rcases hd with hd | hd | rfl | rfl | rfl <;> simp at * <;> omega
    · rcases hd with hd | hd | hd | hd | hd <;> revert hd <;> decide
  have hq : ∀ d : Char, EAlpha d → ∀ q ∈ "\"'".toList, d ≠ q := by
    intro d hd q hq e
    subst e
    revert hd
    revert d
    unfold EAlpha
    decide
  obtain ⟨e1, h1⟩ := floatOrInt_err x (hn _ hd)
  obtain ⟨e2, h2⟩ := textLiteral_err x (hn (fun c => c = '"') fun d h => hq d h '"' (by decide))
  have h3 : ∃ e, bytestringUtf8 x i = .err e := by
    obtain ⟨e, h⟩ : ∃ e, tag "'" i = .err e := tag_err fun r' he => by
      rw [hcu] at he
      cases he
      exact hq _ hc _ (by decide) rfl
    exact ⟨e, by simp only [bytestringUtf8, mapResFail, delimited, preceded, h, PR.bind]⟩
  obtain ⟨e3, h3⟩ := h3
  have hv : ∃ b, bytestring x i = .ok r1 b := by
    unfold value at hv
    rw [alt_err h1, alt_err (by simp only [pmap, h2, PR.bind] : pmap Ast.Value.text (textLiteral x) i = .err e2)] at hv
    obtain ⟨_, a, h, h'⟩ := pbind_ok hv
    cases h'
    exact ⟨a, h⟩
  obtain ⟨b, hv⟩ := hv
  unfold bytestring at hv
  rw [alt_err (by simp only [pmap, h3, PR.bind] : pmap _ (bytestringUtf8 x) i = .err e3)] at hv
  have hid : ∀ {k : List Char} {rest : List Char}, Ident k → i = k ++ '\'' :: rest → r = '\'' :: rest := by
    intro k rest hk e
    have := ident_run (r := '\'' :: rest) hk (notHead_cons (by unfold EAlpha Digit; decide) _)
    rw [← e, hi] at this
    cases this
    rfl
  rcases palt_ok hv with h | ⟨-, h⟩
  · obtain ⟨a, h⟩ := mapResFail_ok h
    obtain ⟨r5, a5, h5, h6⟩ := pbind_ok h
    obtain ⟨r7, a7, h7, h8⟩ := pbind_ok h6
    obtain ⟨r9, a9, h9, h10⟩ := pbind_ok h8
    cases h10
    have e5 := sound_tag (n := i.length) exactRel "h'" i (Nat.le_refl _)
    rw [h5] at e5
    obtain ⟨s5, e5, rfl, -⟩ := e5
    have e9 := sound_tag (n := r7.length) exactRel "'" r7 (Nat.le_refl _)
    rw [h9] at e9
    obtain ⟨s9, e9, rfl, -⟩ := e9
    exact ⟨r5, a, r7, hid (k := ['h']) (.mk (t := []) (by unfold EAlpha; decide) .nil) e5, h7, e9⟩
  · obtain ⟨a, h⟩ := mapResFail_ok h
    obtain ⟨r5, a5, h5, h6⟩ := pbind_ok h
    obtain ⟨r7, a7, h7, h8⟩ := pbind_ok h6
    obtain ⟨r9, a9, h9, h10⟩ := pbind_ok h8
    cases h10
    have e5 := sound_tag (n := i.length) exactRel "b64'" i (Nat.le_refl _)
    rw [h5] at e5
    obtain ⟨s5, e5, rfl, -⟩ := e5
    have e9 := sound_chr (n := r7.length) exactRel '\'' r7 (Nat.le_refl _)
    rw [h9] at e9
    obtain ⟨s9, e9, rfl⟩ := e9
    refine ⟨r5, a, r7, hid (k := ['b', '6', '4']) (.mk (t := ['6', '4']) (by unfold EAlpha; decide)
      (.cons (ps := []) (t := ['4']) (by simp) (.inr (by unfold Digit; decide)) (.cons (ps := []) (t := []) (by simp)
        (.inr (by unfold Digit; decide)) .nil))) e5, h7, e9⟩

/-- The literal from the quote on. -/
theorem value_quote {rest c r1 : List Char} (h : bchar rest = .ok ('\'' :: r1) c) :
    (∃ v, value x ('\'' :: rest) = .ok r1 v) ∨ ∃ e, value x ('\'' :: rest) = .fail e := by
  obtain ⟨e1, h1⟩ := floatOrInt_err x (i := '\'' :: rest) (notHead_cons (p := fun c => Digit c ∨ c = '-')
    (by unfold Digit; decide) _)
  obtain ⟨e2, h2⟩ := textLiteral_err x (i := '\'' :: rest) (notHead_cons (p := fun c => c = '"') (by decide) _)
  have h3 : tag "'" ('\'' :: rest) = .ok rest ['\''] := tag_ok "'" ['\''] _ rfl
  have h4 : tag "'" ('\'' :: r1) = .ok r1 ['\''] := tag_ok "'" ['\''] _ rfl
  have h5 : delimited (tag "'") bchar (tag "'") ('\'' :: rest) = .ok r1 c := by
    simp only [delimited, preceded, terminated, h3, h, h4, PR.bind]
  unfold value
  rw [alt_err h1, alt_err (by simp only [pmap, h2, PR.bind] : pmap Ast.Value.text (textLiteral x) _ = .err e2)]
  simp only [pmap, bytestring, alt, bytestringUtf8, mapResFail, h5, PR.bind]
  cases unescapeOr x c with
  | ok t => exact .inl ⟨_, rfl⟩
  | error e => exact .inr ⟨_, rfl⟩

theorem grpentVal_dead {rec' : PRec} (hrec : rec.type2 = type2 x rec') {c : Char} {u : List Char}
    (hc : ¬ (TypeHead c)) (r' : List Char) (v : GrpEntVal) : grpentVal rec (c :: u) ≠ .ok r' v := by
  obtain ⟨e1, h1⟩ := type2_err (x := x) (r := rec') (i := c :: u) hc
  obtain ⟨e2, h2⟩ := ident_err (i := c :: u) fun h => hc (.inr (.inl h))
  obtain ⟨e3, h3⟩ := inParens_err (r := rec) (i := c :: u) fun h => hc (.inr (.inr (by rw [h]; decide)))
  have h4 : grpentMember rec (c :: u) = .err e1 := by
    simp only [grpentMember, terminated, type1, pmap, pair, hrec, h1, PR.bind]
  simp [grpentVal, alt, h4, pmap, h2, h3]

/-- Behind a bare group name nothing can be read.  If a quote stands there, the name is that of a byte string. -/
theorem groupname_dead_value {rec' : PRec} (hrec : rec.type2 = type2 x rec') {i r s : List Char} {e : ParseError}
    (hm : grpentMember rec i = .err e) (hi : ident i = .ok r s) :
    Dead (trim r) ∧ (∀ r' v, grpentVal rec (trim r) ≠ .ok r' v) ∧
      ((∃ u, trim r = '\'' :: u) → ∃ r1 v, value x i = .ok r1 v) := by
  -- the first type is read
  have h1 : ∃ i' first, terminated (type1 rec) ws i = .ok i' first := by
    have ht : ∀ e, rec.type2 i ≠ .err e := by
      intro e he
      rw [hrec] at he
      unfold type2 at he
      cases hv : value x i with
      | err e1 =>
        rw [alt_err (by simp only [pmap, hv, PR.bind] : pmap Ty2.value (value x) i = .err e1)] at he
        unfold alt at he
        simp only [pmap, nameGenericP, pair, hi, PR.bind] at he
        cases hg : opt (genericArg rec') r with
        | err e => exact opt_not_err hg
        | _ => rw [hg] at he; simp at he
      | _ => simp [alt, pmap, hv] at he
    cases ht1 : type1 rec i with
    | ok r0 t =>
      obtain ⟨w, hw⟩ := ws_trim r0
      exact ⟨trim r0, t, by simp only [terminated, ht1, hw, PR.bind]⟩
    | err e =>
      exfalso
      simp only [type1, pmap, pair] at ht1
      cases h2 : rec.type2 i with
      | err e => exact ht e h2
      | ok r2 t =>
        rw [h2] at ht1
        simp only [PR.bind] at ht1
        cases ho : opt (preceded ws (rangeOrControlOp rec)) r2 with
        | err e => exact opt_not_err ho
        | _ => rw [ho] at ht1; simp at ht1
      | _ => rw [h2] at ht1; simp at ht1
    | _ => simp [grpentMember, terminated, ht1] at hm
  obtain ⟨i', first, h1⟩ := h1
  have h2 : ∃ e', memberRest rec first i' = .err e' := by
    unfold grpentMember at hm
    rw [h1] at hm
    simp only [PR.bind] at hm
    have key : ifOk (memberkeyTail rec i') (fun i'' t => assembleBasicMember first t i'') (memberRest rec first i') = .err e →
        memberRest rec first i' = .err e := by
      intro h
      cases hk : memberkeyTail rec i' with
      | ok r t =>
        rw [hk] at h
        simp only [ifOk, assembleBasicMember] at h
        split at h
        · cases h
        · split at h <;> cases h
        · cases h
      | err e => rw [hk] at h; exact h
      | fail e => rw [hk] at h; exact h
      | _ => rw [hk] at h; cases h
    split at hm
    · exact ⟨e, key hm⟩
    · exact ⟨e, key hm⟩
    · exact ⟨e, hm⟩
  obtain ⟨e', h2⟩ := h2
  obtain ⟨r3, first', h3, h4⟩ := pbind_ok h1
  obtain ⟨w, hw⟩ := ws_trim r3
  rw [hw] at h4
  cases h4
  obtain ⟨⟨u, hu, hu'⟩, hrest⟩ := memberRest_err hrec (trim_trim r3) h2
  obtain ⟨_, ⟨t, o⟩, h5, h6⟩ := pbind_ok h3
  cases h6
  obtain ⟨r2, t', h7, h8⟩ := pbind_ok h5
  obtain ⟨_, o', h9, h10⟩ := pbind_ok h8
  cases h10
  have hslash : ¬ TypeHead '/' := by unfold TypeHead Digit EAlpha; decide
  have hdot : ¬ TypeHead '.' := by unfold TypeHead Digit EAlpha; decide
  have hlt : ¬ TypeHead '<' := by unfold TypeHead Digit EAlpha; decide
  rw [hrec] at h7
  unfold type2 at h7
  rcases palt_ok h7 with h7 | ⟨⟨e7, h7e⟩, h7⟩
  · -- a byte string
    obtain ⟨_, v, hv, hv'⟩ := pbind_ok h7
    cases hv'
    obtain ⟨rest, c, r4, rfl, hb, rfl⟩ := value_identLike hi hv
    have hd : Dead ('\'' :: rest) := ⟨_, _, rfl, .inr (.inr (.inl rfl))⟩
    rw [hd.trim]
    refine ⟨hd, fun r' v' h => ?_, fun _ => ⟨_, v, hv⟩⟩
    obtain ⟨e2, h2'⟩ := ident_err (i := '\'' :: rest) (notHead_cons (p := EAlpha) (by unfold EAlpha; decide) _)
    obtain ⟨e3, h3'⟩ := inParens_err (r := rec) (i := '\'' :: rest) (notHead_cons (p := fun c => c = '(') (by decide) _)
    have hmem : ∀ r v, grpentMember rec ('\'' :: rest) ≠ .ok r v := by
      intro r v hmm
      rcases value_quote (x := x) hb with ⟨v', hv'⟩ | ⟨e, he⟩
      · have ht1 : terminated (type1 rec) ws ('\'' :: rest) = .ok (trim r3) (makeType1 (.value v', o)) := by
          simp only [terminated, type1, pmap, pair, hrec, type2, alt, hv', h9, hw, PR.bind]
        have hk : ∃ e, memberkeyTail rec (trim r3) = .err e := by
          obtain ⟨e, h⟩ : ∃ e, tag ":" (trim r3) = .err e := tag_err fun r' he => by rw [hu] at he; cases he
          exact ⟨e, by simp only [memberkeyTail, preceded, pair, h, PR.bind]⟩
        obtain ⟨e, hk⟩ := hk
        unfold grpentMember at hmm
        rw [ht1] at hmm
        simp only [PR.bind, hk, ifOk, hrest] at hmm
        split at hmm <;> cases hmm
      · have ht1 : terminated (type1 rec) ws ('\'' :: rest) = .fail e := by
          simp only [terminated, type1, pmap, pair, hrec, type2, alt, he, PR.bind]
        unfold grpentMember at hmm
        rw [ht1] at hmm
        cases hmm
    rcases palt_ok h with h | ⟨-, h⟩
    · exact hmem _ _ h
    · rw [alt_err (by simp only [pmap, h2', PR.bind] : pmap _ ident _ = .err e2)] at h
      simp only [pmap, h3', PR.bind] at h
      cases h
  · -- a name
    unfold alt at h7
    simp only [pmap, nameGenericP, pair, hi, PR.bind] at h7
    cases hg : opt (genericArg rec') r with
    | err e => exact absurd hg opt_not_err
    | ok r5 oa =>
      rw [hg] at h7
      cases h7
      cases oa with
      | none =>
        have := opt_none hg
        subst this
        cases o with
        | none =>
          have := opt_none h9
          subst this
          rw [hu]
          exact ⟨⟨_, _, rfl, .inr (.inr (.inr ⟨rfl, hu'⟩))⟩, grpentVal_dead hrec hslash, fun ⟨_, h⟩ => by cases h⟩
        | some ob =>
          obtain ⟨w2, hw2⟩ := ws_trim r2
          have h := opt_some h9
          simp only [preceded, hw2, PR.bind, rangeOrControlOp] at h
          obtain ⟨r6, op, h11, -⟩ := pbind_ok h
          have : ∃ u, trim r2 = '.' :: u := by
            rcases palt_ok h11 with h | ⟨-, h⟩
            · exact tag_head rfl h
            · rcases palt_ok h with h | ⟨-, h⟩
              · exact tag_head rfl h
              · obtain ⟨_, _, h, -⟩ := pbind_ok h
                exact tag_head rfl h
          obtain ⟨u2, hu2⟩ := this
          rw [hu2]
          exact ⟨⟨_, _, rfl, .inl rfl⟩, grpentVal_dead hrec hdot, fun ⟨_, h⟩ => by cases h⟩
      | some as =>
        have h := opt_some hg
        obtain ⟨_, _, h, -⟩ := pbind_ok h
        obtain ⟨_, _, h, -⟩ := pbind_ok h
        obtain ⟨u2, rfl⟩ := tag_head (c := '<') rfl h
        have hd : Dead ('<' :: u2) := ⟨_, _, rfl, .inr (.inl rfl)⟩
        rw [hd.trim]
        exact ⟨hd, grpentVal_dead hrec hlt, fun ⟨_, h⟩ => by cases h⟩
    | _ => rw [hg] at h7; cases h7

theorem groupname_dead {rec' : PRec} (hrec : rec.type2 = type2 x rec') {i r s : List Char} {e : ParseError}
    (hm : grpentMember rec i = .err e) (hi : ident i = .ok r s) :
    Dead (trim r) ∧ ∀ r' v, grpentVal rec (trim r) ≠ .ok r' v :=
  ⟨(groupname_dead_value hrec hm hi).1, (groupname_dead_value hrec hm hi).2.1⟩

end Cddl
