import Verif.Proofs.GapAll

/-!
# White space behind punctuation

A run of the parser on a text is compared with its run on the text with white space put in behind a character `c` that
stands alone or ends a token.  `r` and `r'` are the texts behind `c` without and with the white space.
-/

namespace Cddl

open Ast (Ty Ty1 Ty2 MemberKeyVal GrpEntVal GrpEnt Group GrpChoice RuleVal)

/-- The text is empty or its last character is `c`. -/
def EndsIn (c : Char) (t : List Char) : Prop := ∀ a d, t = a ++ [d] → d = c

theorem EndsIn.rest {c : Char} {a b : List Char} (h : EndsIn c (a ++ b)) : EndsIn c b := fun u d e =>
  h (a ++ u) d (by rw [e, List.append_assoc])

/-- What two runs come to.  `near`: both have stopped before the place (not directly before it if `o`).  `far`: both have
got to the same place behind it (not if `loc`).  The values are equal if `V`. -/
inductive Rel2 {α : Type} (c : Char) (r r' : List Char) (o loc V : Bool) : PR α → PR α → Prop
  | near {a b} (t) : Outside t → EndsIn c t → (o = true → t ≠ []) → (V = true → a = b) →
      Rel2 c r r' o loc V (.ok (t ++ r) a) (.ok (t ++ r') b)
  | far {a b} (k) : loc = false → (V = true → a = b) → Rel2 c r r' o loc V (.ok k a) (.ok k b)
  | err (e e') : Rel2 c r r' o loc V (.err e) (.err e')
  | fail (e e') : Rel2 c r r' o loc V (.fail e) (.fail e')
  | panic : Rel2 c r r' o loc V .panic .panic
  | oofL (y) : Rel2 c r r' o loc V .oof y
  | oofR (y) : Rel2 c r r' o loc V y .oof

/-- The parser does the same on both texts, begun before the place (also directly before it if `st`). -/
def Sim2 {α : Type} (c : Char) (r r' : List Char) (st o loc V : Bool) (p : P α) : Prop :=
  ∀ t, Outside t → EndsIn c t → (t = [] → st = true) → Rel2 c r r' o loc V (p (t ++ r)) (p (t ++ r'))

section
variable {α β γ : Type} {c : Char} {r r' : List Char} {st o st' o' loc V : Bool} {p : P α} {q : P β}

theorem Rel2.refl (x : PR α) : Rel2 c r r' o false V x x := by
  cases x with
  | ok k a => exact .far k rfl fun _ => rfl
  | err e => exact .err _ _
  | fail e => exact .fail _ _
  | panic => exact .panic
  | oof => exact .oofL _

theorem Rel2.same {x : PR α} (h : loc = false) : Rel2 c r r' o loc V x x := h ▸ Rel2.refl x

theorem Rel2.mono {o1 l1 V1 o2 l2 V2 : Bool} {x y : PR α} (h : Rel2 c r r' o1 l1 V1 x y) (ho : o2 = true → o1 = true)
    (hl : l2 = true → l1 = true) (hV : V2 = true → V1 = true) : Rel2 c r r' o2 l2 V2 x y := by
  cases h with
  | near t h1 h2 h3 h4 => exact .near t h1 h2 (fun h => h3 (ho h)) fun h => h4 (hV h)
  | far k h h2 =>
    refine .far k ?_ fun h => h2 (hV h)
    cases l2 with
    | false => rfl
    | true => rw [hl rfl] at h; cases h
  | err e e' => exact .err _ _
  | fail e => exact .fail _ _
  | panic => exact .panic
  | oofL => exact .oofL _
  | oofR => exact .oofR _

theorem Sim2.mono {s1 o1 l1 V1 s2 o2 l2 V2 : Bool} (h : Sim2 c r r' s1 o1 l1 V1 p) (hs : (!s2 || s1) = true := by rfl)
    (ho : (!o2 || o1) = true := by rfl) (hl : (!l2 || l1) = true := by rfl) (hV : (!V2 || V1) = true := by rfl) :
    Sim2 c r r' s2 o2 l2 V2 p := fun t ht he h0 =>
  (h t ht he fun e => by have := h0 e; subst this; simpa using hs).mono (fun e => by subst e; simpa using ho)
    (fun e => by subst e; simpa using hl) fun e => by subst e; simpa using hV

theorem Rel2.bind {V W : Bool} {x y : PR α} {f g : List Char → α → PR β} (h : Rel2 c r r' o loc V x y)
    (hn : ∀ t a b, Outside t → EndsIn c t → (o = true → t ≠ []) → (V = true → a = b) →
      Rel2 c r r' o' loc W (f (t ++ r) a) (g (t ++ r') b))
    (hf : loc = false → ∀ k a b, (V = true → a = b) → Rel2 c r r' o' loc W (f k a) (g k b)) :
    Rel2 c r r' o' loc W (x.bind f) (y.bind g) := by
  cases h with
  | near t h1 h2 h3 h4 => exact hn t _ _ h1 h2 h3 h4
  | far k h h2 => exact hf h k _ _ h2
  | err e e' => exact .err _ _
  | fail e => exact .fail _ _
  | panic => exact .panic
  | oofL => exact .oofL _
  | oofR => exact .oofR _

theorem Rel2.ifOk {V W : Bool} {x y : PR α} {f g : List Char → α → PR β} {u v : PR β} (h : Rel2 c r r' o loc V x y)
    (hn : ∀ t a b, Outside t → EndsIn c t → (o = true → t ≠ []) → (V = true → a = b) →
      Rel2 c r r' o' loc W (f (t ++ r) a) (g (t ++ r') b))
    (hf : loc = false → ∀ k a b, (V = true → a = b) → Rel2 c r r' o' loc W (f k a) (g k b)) (hu : Rel2 c r r' o' loc W u v) :
    Rel2 c r r' o' loc W (Cddl.ifOk x f u) (Cddl.ifOk y g v) := by
  cases h with
  | near t h1 h2 h3 h4 => exact hn t _ _ h1 h2 h3 h4
  | far k h h2 => exact hf h k _ _ h2
  | err e e' => exact hu
  | fail e => exact hu
  | panic => exact .panic
  | oofL => exact .oofL _
  | oofR => exact .oofR _

/-- A value put together from two. -/
theorem Rel2.join {δ : Type} {V : Bool} {x y : PR β} {f g : β → δ} (h : Rel2 c r r' o loc V x y)
    (hv : ∀ a b, (V = true → a = b) → (V = true → f a = g b)) :
    Rel2 c r r' o loc V (x.bind fun k b => .ok k (f b)) (y.bind fun k b => .ok k (g b)) :=
  h.bind (fun t a b ht he h0 e => .near t ht he h0 (hv a b e)) fun hl k a b e => .far k hl (hv a b e)

theorem Sim2.pmap (f : α → β) (h : Sim2 c r r' st o loc V p) : Sim2 c r r' st o loc V (pmap f p) := fun t ht he h0 =>
  (h t ht he h0).join fun _ _ e hV => congrArg f (e hV)

theorem Sim2.const (d : β) (h : Sim2 c r r' st o loc false p) : Sim2 c r r' st o loc V (Cddl.pmap (fun _ => d) p) :=
  fun t ht he h0 => (h t ht he h0).bind (fun t a b ht he h0 _ => .near t ht he h0 fun _ => rfl)
    fun hl k a b _ => .far k hl fun _ => rfl

theorem starts {t : List Char} (h0 : o = true → t ≠ []) (hs : (o || st') = true) : t = [] → st' = true := by
  intro e
  cases ho : o with
  | true => exact absurd e (h0 ho)
  | false => simpa [ho] using hs

theorem Sim2.pair (h : Sim2 c r r' st o loc V p) (h' : Sim2 c r r' st' o' loc V q) (hs : (o || st') = true := by rfl) :
    Sim2 c r r' st o' loc V (pair p q) := fun t ht he h0 =>
  (h t ht he h0).bind
    (fun t _ _ ht he h0 e => (h' t ht he (starts h0 hs)).join fun _ _ e' hV => by rw [e hV, e' hV])
    fun hl _ _ _ e => (Rel2.same (V := V) hl).join fun _ _ e' hV => by rw [e hV, e' hV]

theorem Sim2.preceded (h : Sim2 c r r' st o loc false p) (h' : Sim2 c r r' st' o' loc V q) (hs : (o || st') = true := by rfl) :
    Sim2 c r r' st o' loc V (preceded p q) := fun t ht he h0 =>
  (h t ht he h0).bind (fun t _ _ ht he h0 _ => h' t ht he (starts h0 hs)) fun hl _ _ _ _ => .same hl

theorem Sim2.terminated (h : Sim2 c r r' st o loc V p) (h' : Sim2 c r r' st' o' loc false q)
    (hs : (o || st') = true := by rfl) : Sim2 c r r' st o' loc V (terminated p q) := fun t ht he h0 =>
  (h t ht he h0).bind
    (fun t _ _ ht he h0 e => (h' t ht he (starts h0 hs)).bind (fun t _ _ ht he h0 _ => .near t ht he h0 e)
      fun hl k _ _ _ => .far k hl e)
    fun hl _ _ _ e => (Rel2.same (o := o') (V := false) hl).bind (fun t _ _ ht he h0 _ => .near t ht he h0 e)
      fun hl k _ _ _ => .far k hl e

theorem Sim2.opt (h : Sim2 c r r' st o loc V p) : Sim2 c r r' st (o && !st) loc V (opt p) := fun t ht he h0 => by
  have := h t ht he h0
  simp only [Cddl.opt]
  generalize p (t ++ r) = x at this ⊢
  generalize p (t ++ r') = y at this ⊢
  cases this with
  | near t h1 h2 h3 h4 => exact .near t h1 h2 (fun h => h3 (by simp at h; exact h.1)) fun hV => by rw [h4 hV]
  | far k h h2 => exact .far k h fun hV => by rw [h2 hV]
  | err e e' => exact .near t ht he (fun h e => by simp [h0 e] at h) fun _ => rfl
  | fail e => exact .fail _ _
  | panic => exact .panic
  | oofL => exact .oofL _
  | oofR => exact .oofR _

theorem Sim2.alt {q : P α} (h : Sim2 c r r' st o loc V p) (h' : Sim2 c r r' st o loc V q) :
    Sim2 c r r' st o loc V (alt p q) := fun t ht he h0 => by
  have := h t ht he h0
  simp only [Cddl.alt]
  generalize p (t ++ r) = x at this ⊢
  generalize p (t ++ r') = y at this ⊢
  cases this with
  | near t h1 h2 h3 h4 => exact .near t h1 h2 h3 h4
  | far k h h2 => exact .far k h h2
  | err e e' => exact h' t ht he h0
  | fail e => exact .fail _ _
  | panic => exact .panic
  | oofL => exact .oofL _
  | oofR x =>
    cases x with
    | err e => exact .oofR _
    | _ => exact .oofR _

theorem many0Loop_same2 (h : loc = false) : ∀ (k m : Nat) (i : List Char),
    Rel2 c r r' o loc V (many0Loop p k i) (many0Loop p m i)
  | 0, _, _ => .oofL _
  | k + 1, 0, _ => .oofR _
  | k + 1, m + 1, i => by
    simp only [many0Loop]
    cases p i with
    | ok s a =>
      dsimp only
      split
      · exact .err _ _
      · exact (many0Loop_same2 h k m s).join fun _ _ e' hV => by rw [e' hV]
    | err => exact .same h
    | fail => exact .fail _ _
    | panic => exact .panic
    | oof => exact .oofL _

theorem Sim2.many0 (h : Sim2 c r r' st o loc V p) (hp : loc = false → Takes 1 p) (hs : (o || st) = true := by rfl) :
    Sim2 c r r' st (o && !st) loc V (many0 p) := by
  have key : ∀ (k m : Nat) t, Outside t → EndsIn c t → (t = [] → st = true) →
      Rel2 c r r' (o && !st) loc V (many0Loop p k (t ++ r)) (many0Loop p m (t ++ r')) := by
    intro k
    induction k with
    | zero => exact fun _ _ _ _ _ => .oofL _
    | succ k ih =>
      intro m t ht he h0
      have stay : Rel2 c r r' (o && !st) loc V (.ok (t ++ r) ([] : List α)) (.ok (t ++ r') []) :=
        .near t ht he (fun h e => by simp [h0 e] at h) fun _ => rfl
      cases m with
      | zero => exact .oofR _
      | succ m =>
        have := h t ht he h0
        simp only [many0Loop]
        cases hx : p (t ++ r) with
        | ok s a =>
          cases hy : p (t ++ r') with
          | ok s' a' =>
            rw [hx, hy] at this
            dsimp only
            cases this with
            | near t1 h1 h2 h3 h4 =>
              by_cases hl : t1.length = t.length
              · rw [if_pos (by simp [hl]), if_pos (by simp [hl])]
                exact .err _ _
              · rw [if_neg (by simpa using hl), if_neg (by simpa using hl)]
                exact (ih m t1 h1 h2 (starts h3 hs)).join fun _ _ e' hV => by rw [h4 hV, e' hV]
            | far _ hl h2 =>
              have e1 := hp hl _ _ _ hx
              have e2 := hp hl _ _ _ hy
              rw [if_neg (by omega), if_neg (by omega)]
              exact (many0Loop_same2 hl k m s).join fun _ _ e' hV => by rw [h2 hV, e' hV]
          | oof => exact .oofR _
          | _ => rw [hx, hy] at this; cases this
        | err e =>
          cases hy : p (t ++ r') with
          | err e' => exact stay
          | oof => exact .oofR _
          | _ => rw [hx, hy] at this; cases this
        | fail e =>
          cases hy : p (t ++ r') with
          | fail e' => exact .fail _ _
          | oof => exact .oofR _
          | _ => rw [hx, hy] at this; cases this
        | panic =>
          cases hy : p (t ++ r') with
          | panic => exact .panic
          | oof => exact .oofR _
          | _ => rw [hx, hy] at this; cases this
        | oof => exact .oofL _
  exact fun t ht he h0 => key _ _ t ht he h0

theorem Sim2.many0A (h : Sim2 c r r' false true loc V p) (hp : loc = false → Takes 1 p) :
    Sim2 c r r' false true loc V (Cddl.many0 p) := h.many0 hp

theorem Sim2.many0B (h : Sim2 c r r' true o loc V p) (hp : loc = false → Takes 1 p) :
    Sim2 c r r' false false loc V (Cddl.many0 p) := by
  have := h.many0 hp (by simp)
  rw [show (o && !true) = false by simp] at this
  exact fun t ht he h0 => this t ht he fun _ => rfl

theorem Sim2.optA (h : Sim2 c r r' false o loc V p) : Sim2 c r r' false o loc V (Cddl.opt p) := by
  have := h.opt
  rwa [show (o && !false) = o by simp] at this

theorem Sim2.optB (h : Sim2 c r r' true o loc V p) : Sim2 c r r' true false loc V (Cddl.opt p) := by
  have := h.opt
  rwa [show (o && !true) = false by simp] at this

theorem Sim2.many1 (h : Sim2 c r r' false true loc V p) (hp : loc = false → Takes 1 p) :
    Sim2 c r r' false true loc V (many1 p) := fun t ht he h0 =>
  (h t ht he h0).bind
    (fun t _ _ ht he h0 e => (h.many0A hp t ht he (fun e => absurd e (h0 rfl))).join fun _ _ e' hV => by rw [e hV, e' hV])
    fun hl _ _ _ e => (Rel2.same (V := V) hl).join fun _ _ e' hV => by rw [e hV, e' hV]

theorem sepLoop_same2 (h : loc = false) : ∀ (k m : Nat) (i : List Char),
    Rel2 c r r' o loc V (sepLoop q p k i) (sepLoop q p m i)
  | 0, _, _ => .oofL _
  | k + 1, 0, _ => .oofR _
  | k + 1, m + 1, i => by
    simp only [sepLoop]
    cases q i with
    | ok s a =>
      dsimp only
      split
      · exact .err _ _
      · cases p s with
        | ok s' b => exact (sepLoop_same2 h k m s').join fun _ _ e' hV => by rw [e' hV]
        | err => exact .same h
        | fail => exact .fail _ _
        | panic => exact .panic
        | oof => exact .oofL _
    | err => exact .same h
    | fail => exact .fail _ _
    | panic => exact .panic
    | oof => exact .oofL _

theorem sepLoop_sim2 (h : Sim2 c r r' st o loc V p) (h' : Sim2 c r r' st' o' loc false q) (hq : loc = false → Takes 1 q)
    (hs : (o || st') = true) (hs' : (o' || st) = true) :
    ∀ (k m : Nat) t, Outside t → EndsIn c t → (o = true → t ≠ []) →
      Rel2 c r r' o loc V (sepLoop q p k (t ++ r)) (sepLoop q p m (t ++ r'))
  | 0, _, _, _, _, _ => .oofL _
  | k + 1, 0, _, _, _, _ => .oofR _
  | k + 1, m + 1, t, ht, he, h0 => by
    have hsep := h' t ht he (starts h0 hs)
    simp only [sepLoop]
    have stay : Rel2 c r r' o loc V (.ok (t ++ r) ([] : List α)) (.ok (t ++ r') []) := .near t ht he h0 fun _ => rfl
    -- what happens behind the separator
    have item : ∀ {x y : PR α}, Rel2 c r r' o loc V x y → Rel2 c r r' o loc V
        (match x with
          | .ok r' a => (sepLoop q p k r').bind fun r'' as => .ok r'' (a :: as)
          | .err _ => .ok (t ++ r) []
          | .fail e => .fail e
          | .panic => .panic
          | .oof => .oof)
        (match y with
          | .ok r' a => (sepLoop q p m r').bind fun r'' as => .ok r'' (a :: as)
          | .err _ => .ok (t ++ r') []
          | .fail e => .fail e
          | .panic => .panic
          | .oof => .oof) := by
      intro x y hxy
      cases hxy with
      | near t1 h1 h2 h3 h4 =>
        exact (sepLoop_sim2 h h' hq hs hs' k m t1 h1 h2 h3).join fun _ _ e' hV => by rw [h4 hV, e' hV]
      | far k0 hl h2 => exact (sepLoop_same2 hl k m k0).join fun _ _ e' hV => by rw [h2 hV, e' hV]
      | err => exact stay
      | fail => exact .fail _ _
      | panic => exact .panic
      | oofL => exact .oofL _
      | oofR => exact .oofR _
    cases hx : q (t ++ r) with
    | ok s a =>
      cases hy : q (t ++ r') with
      | ok s' a' =>
        rw [hx, hy] at hsep
        dsimp only
        cases hsep with
        | near t1 h1 h2 h3 h4 =>
          by_cases hl : t1.length = t.length
          · rw [if_pos (by simp [hl]), if_pos (by simp [hl])]
            exact .err _ _
          · rw [if_neg (by simpa using hl), if_neg (by simpa using hl)]
            exact item (h t1 h1 h2 (starts h3 hs'))
        | far _ hl h2 =>
          have e1 := hq hl _ _ _ hx
          have e2 := hq hl _ _ _ hy
          rw [if_neg (by omega), if_neg (by omega)]
          exact item (.same hl)
      | oof => exact .oofR _
      | _ => rw [hx, hy] at hsep; cases hsep
    | err e =>
      cases hy : q (t ++ r') with
      | err e' => exact stay
      | oof => exact .oofR _
      | _ => rw [hx, hy] at hsep; cases hsep
    | fail e =>
      cases hy : q (t ++ r') with
      | fail e' => exact .fail _ _
      | oof => exact .oofR _
      | _ => rw [hx, hy] at hsep; cases hsep
    | panic =>
      cases hy : q (t ++ r') with
      | panic => exact .panic
      | oof => exact .oofR _
      | _ => rw [hx, hy] at hsep; cases hsep
    | oof => exact .oofL _

theorem Sim2.sepList1 (h : Sim2 c r r' st o loc V p) (h' : Sim2 c r r' st' o' loc false q) (hq : loc = false → Takes 1 q)
    (hs : (o || st') = true := by rfl) (hs' : (o' || st) = true := by rfl) :
    Sim2 c r r' st o loc V (sepList1 q p) := fun t ht he h0 =>
  (h t ht he h0).bind
    (fun t _ _ ht he h0 e => (sepLoop_sim2 h h' hq hs hs' _ _ t ht he h0).join fun _ _ e' hV => by rw [e hV, e' hV])
    fun hl k _ _ e => (sepLoop_same2 (V := V) hl _ _ k).join fun _ _ e' hV => by rw [e hV, e' hV]

theorem Sim2.recognize (h : Sim2 c r r' st o true false p) : Sim2 c r r' st o true V (recognize p) := fun t ht he h0 =>
  (h t ht he h0).bind (fun t1 a b ht he h0 _ => .near t1 ht he h0 fun _ => by rw [take_gap, take_gap]) fun hl => by cases hl

theorem Sim2.recognizer (h : Sim2 c r r' st o true V p) : Sim2 c r r' st o true V (recognizer p) := fun t ht he h0 =>
  (h t ht he h0).bind (fun t1 a b ht he h0 e => .near t1 ht he h0 fun hV => by rw [take_gap, take_gap, e hV])
    fun hl => by cases hl

theorem Sim2.mapResFail (f : α → Except ParseError β) (h : Sim2 c r r' st o loc true p) :
    Sim2 c r r' st o loc V (mapResFail p f) := fun t ht he h0 =>
  (h t ht he h0).bind
    (fun t1 a b ht he h0 e => by
      rw [e rfl]
      cases f b with
      | ok c => exact .near t1 ht he h0 fun _ => rfl
      | error e => exact .fail _ _)
    fun hl k a b e => by rw [e rfl]; exact .same hl

theorem Sim2.mapRes (f : α → Except ParseError β) (h : Sim2 c r r' st o loc true p) :
    Sim2 c r r' st o loc V (mapRes p f) := fun t ht he h0 =>
  (h t ht he h0).bind
    (fun t1 a b ht he h0 e => by
      rw [e rfl]
      cases f b with
      | ok c => exact .near t1 ht he h0 fun _ => rfl
      | error e => exact .err _ _)
    fun hl k a b e => by rw [e rfl]; exact .same hl

end

/-! ## Tokens -/

section
variable {c : Char} {r r' : List Char} {V : Bool} {f : Char → Bool}

theorem EndsIn.last {d : Char} {t : List Char} (h : EndsIn c (d :: t)) (hd : d ≠ c) : t ≠ [] := by
  rintro rfl
  exact hd (h [] d rfl)

theorem EndsIn.tail {d : Char} {t : List Char} (h : EndsIn c (d :: t)) : EndsIn c t := EndsIn.rest (a := [d]) h

theorem sim2_satisfy (hf : Tame f) : Sim2 c r r' false false true V (satisfy f) := by
  intro t ht he h0
  cases t with
  | nil => cases h0 rfl
  | cons d t =>
    cases h : f d with
    | true =>
      simp only [List.cons_append, satisfy, h, if_true]
      obtain ⟨h1, h2, h3, _⟩ := hf d h
      exact .near t (ht.tail ⟨h1, h2, h3⟩) he.tail (fun h => by cases h) fun _ => rfl
    | false =>
      simp only [List.cons_append, satisfy, h]
      exact .err _ _

theorem sim2_satisfyO (hf : Tame f) (hc : f c = false) : Sim2 c r r' false true true V (satisfy f) := by
  intro t ht he h0
  cases t with
  | nil => cases h0 rfl
  | cons d t =>
    cases h : f d with
    | true =>
      simp only [List.cons_append, satisfy, h, if_true]
      obtain ⟨h1, h2, h3, _⟩ := hf d h
      exact .near t (ht.tail ⟨h1, h2, h3⟩) he.tail (fun _ => he.last (by rintro rfl; rw [hc] at h; cases h)) fun _ => rfl
    | false =>
      simp only [List.cons_append, satisfy, h]
      exact .err _ _

theorem takeWhile_join (hc : f c = false) {t : List Char} (he : EndsIn c t) (h0 : t ≠ []) (r : List Char) :
    (t ++ r).takeWhile f = t.takeWhile f ∧ (t ++ r).dropWhile f = t.dropWhile f ++ r ∧ t.dropWhile f ≠ [] := by
  induction t with
  | nil => exact absurd rfl h0
  | cons d t ih =>
    cases h : f d with
    | true =>
      have := ih he.tail (he.last (by rintro rfl; rw [hc] at h; cases h))
      simp [h, this]
    | false => simp [h]

theorem EndsIn.drop {t : List Char} (h : EndsIn c t) : EndsIn c (t.dropWhile f) := by
  have e := List.takeWhile_append_dropWhile (p := f) (l := t)
  rw [← e] at h
  exact h.rest

theorem ne_nil {t : List Char} (h : t = [] → false = true) : t ≠ [] := fun e => by cases h e

theorem sim2_takeWhile0 (hf : Tame f) (hc : f c = false) : Sim2 c r r' false true true V (takeWhile0 f) := by
  intro t ht he h0
  obtain ⟨h1, h2, h3⟩ := takeWhile_join hc he (ne_nil h0) r
  obtain ⟨h4, h5, _⟩ := takeWhile_join hc he (ne_nil h0) r'
  simp only [takeWhile0, h1, h2, h4, h5]
  exact .near _ (ht.drop hf) he.drop (fun _ => h3) fun _ => rfl

theorem sim2_takeWhile1 (hf : Tame f) (hc : f c = false) : Sim2 c r r' false true true V (takeWhile1 f) := by
  intro t ht he h0
  obtain ⟨h1, h2, h3⟩ := takeWhile_join hc he (ne_nil h0) r
  obtain ⟨h4, h5, _⟩ := takeWhile_join hc he (ne_nil h0) r'
  simp only [takeWhile1, h1, h2, h4, h5]
  split
  · exact .err _ _
  · exact .near _ (ht.drop hf) he.drop (fun _ => h3) fun _ => rfl

/-- A tag with `c` at most at its end is in the text before the place or not there. -/
theorem tag_join {s : String} (hs : ∀ d ∈ s.toList.dropLast, d ≠ c) {t : List Char} (he : EndsIn c t) (h0 : t ≠ []) :
    (∃ t1, t = s.toList ++ t1 ∧ ∀ r, tag s (t ++ r) = .ok (t1 ++ r) s.toList) ∨ ∀ r, ∃ e, tag s (t ++ r) = .err e := by
  have key : ∀ (l t : List Char), (∀ d ∈ l.dropLast, d ≠ c) → EndsIn c t → t ≠ [] →
      (∃ t1, t = l ++ t1 ∧ ∀ r, stripPrefix l (t ++ r) = some (t1 ++ r)) ∨ ∀ r, stripPrefix l (t ++ r) = none := by
    intro l
    induction l with
    | nil => exact fun t _ _ _ => .inl ⟨t, rfl, fun r => rfl⟩
    | cons d l ih =>
      intro t hl he h0
      cases t with
      | nil => exact absurd rfl h0
      | cons e t =>
        by_cases hde : d = e
        · subst hde
          cases l with
          | nil => exact .inl ⟨t, rfl, fun r => by simp [stripPrefix]⟩
          | cons d' l =>
            have hd : d ≠ c := hl d (by simp)
            rcases ih t (fun e h => hl e (by simp at h ⊢; exact .inr h)) he.tail (he.last hd) with ⟨t1, rfl, h⟩ | h
            · exact .inl ⟨t1, rfl, fun r => by simpa [stripPrefix] using h r⟩
            · exact .inr fun r => by simpa [stripPrefix] using h r
        · exact .inr fun r => by simp [stripPrefix, hde]
  rcases key s.toList t hs he h0 with ⟨t1, h, h'⟩ | h
  · exact .inl ⟨t1, h, fun r => by simp only [tag, h' r]⟩
  · exact .inr fun r => ⟨unparseable (t ++ r), by simp only [tag, h r]⟩

theorem sim2_tag {s : String} (hs : ∀ d ∈ s.toList, d ≠ '"' ∧ d ≠ '\'' ∧ d ≠ ';' ∧ ¬ Blank d)
    (hc : ∀ d ∈ s.toList.dropLast, d ≠ c) : Sim2 c r r' false false true V (tag s) := by
  intro t ht he h0
  rcases tag_join hc he (ne_nil h0) with ⟨t1, rfl, h⟩ | h
  · rw [h, h]
    exact .near t1 (ht.rest (foldl_next_code fun c hc => ⟨(hs c hc).1, (hs c hc).2.1, (hs c hc).2.2.1⟩)) he.rest
      (fun h => by cases h) fun _ => rfl
  · obtain ⟨e, h1⟩ := h r
    obtain ⟨e', h2⟩ := h r'
    rw [h1, h2]
    exact .err _ _

theorem sim2_tagO {s : String} (hs : ∀ d ∈ s.toList, d ≠ '"' ∧ d ≠ '\'' ∧ d ≠ ';' ∧ ¬ Blank d)
    (hc : ∀ d ∈ s.toList, d ≠ c) : Sim2 c r r' false true true V (tag s) := by
  intro t ht he h0
  rcases tag_join (s := s) (fun d hd => hc d (List.dropLast_subset _ hd)) he (ne_nil h0) with ⟨t1, rfl, h⟩ | h
  · rw [h, h]
    refine .near t1 (ht.rest (foldl_next_code fun c hc => ⟨(hs c hc).1, (hs c hc).2.1, (hs c hc).2.2.1⟩)) he.rest
      (fun _ => ?_) fun _ => rfl
    rintro rfl
    rw [List.append_nil] at he h0
    rcases List.eq_nil_or_concat s.toList with e | ⟨l, d, e⟩
    · exact absurd e (ne_nil h0)
    · rw [List.concat_eq_append] at e
      exact hc d (by rw [e]; simp) (he l d e)
  · obtain ⟨e, h1⟩ := h r
    obtain ⟨e', h2⟩ := h r'
    rw [h1, h2]
    exact .err _ _

end

end Cddl
