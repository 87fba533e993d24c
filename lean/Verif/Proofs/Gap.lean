import Verif.Spec.Outside
import Verif.Proofs.ParseRunHead
import Verif.Proofs.ParseMono

/-!
# What the parser makes of white space

A run of the parser on a text with a gap (white space and comments) at some place outside of literals is compared with
its run on the text with another gap there.  `r` and `r'` are the texts from the gap on.
-/

namespace Cddl

open Ast (Ty Ty1 Ty2 MemberKeyVal GrpEntVal GrpEnt Group GrpChoice RuleVal)

/-! ## Places -/

theorem foldl_next_app (p : Spot) (a b : List Char) :
    (a ++ b).foldl Spot.next p = b.foldl Spot.next (a.foldl Spot.next p) := List.foldl_append

theorem foldl_next_code {a : List Char} (h : ∀ c ∈ a, c ≠ '"' ∧ c ≠ '\'' ∧ c ≠ ';') :
    a.foldl Spot.next .code = .code := by
  induction a with
  | nil => rfl
  | cons c a ih =>
    obtain ⟨h1, h2, h3⟩ := h c (.head _)
    rw [List.foldl_cons, show Spot.next .code c = .code by simp [Spot.next, h1, h2, h3]]
    exact ih fun d hd => h d (.tail _ hd)

theorem foldl_next_comment {a : List Char} (h : ∀ c ∈ a, c ≠ '\n') : a.foldl Spot.next .comment = .comment := by
  induction a with
  | nil => rfl
  | cons c a ih =>
    rw [List.foldl_cons, show Spot.next .comment c = .comment by simp [Spot.next, h c (.head _)]]
    exact ih fun d hd => h d (.tail _ hd)

/-- The rest of an outside text behind a text that itself ends outside. -/
theorem Outside.rest {a b : List Char} (h : Outside (a ++ b)) (ha : a.foldl Spot.next .code = .code) : Outside b := by
  unfold Outside at h
  rw [foldl_next_app, ha] at h
  exact h

theorem Blank.code {c : Char} (h : Blank c) : Spot.next .code c = .code := by
  rcases h with rfl | rfl | rfl | rfl <;> rfl

theorem comment_code {t : List Char} (h : ∀ c ∈ t, c ≠ '\n') : (';' :: t).foldl Spot.next .code = .comment :=
  foldl_next_comment h

theorem WS.code {w : List Char} (h : WS w) : w.foldl Spot.next .code = .code := by
  induction h with
  | nil => rfl
  | blank hc _ ih => rw [List.foldl_cons, hc.code, ih]
  | comment ht _ ih =>
    rw [foldl_next_app, comment_code fun c hc => (ht c hc).2]
    exact ih
  | commentCr ht _ ih =>
    rw [foldl_next_app, comment_code fun c hc => (ht c hc).2]
    exact ih

/-- Where white space of an outside text ends, whatever follows that text. -/
theorem Outside.white {t : List Char} (h : Outside t) : WS t ∨ ∃ w u, t = w ++ u ∧ WS w ∧ Outside u ∧
    ∀ r, WsTo (u ++ r) (u ++ r) := by
  generalize hk : t.length = k
  induction k using Nat.strongRecOn generalizing t with
  | _ k ih =>
    cases t with
    | nil => exact .inl .nil
    | cons c t =>
      by_cases hb : Blank c
      · have h' : Outside t := Outside.rest (a := [c]) h (by simp [hb.code])
        rcases ih t.length (by simp at hk; omega) h' rfl with hw | ⟨w, u, rfl, hw, hu, hs⟩
        · exact .inl (.blank hb hw)
        · exact .inr ⟨c :: w, u, rfl, .blank hb hw, hu, hs⟩
      · by_cases hc : c = ';'
        · subst hc
          have h1 : t.foldl Spot.next .comment = .code := h
          -- the line
          have line : ∃ l t2, t = l ++ '\n' :: t2 ∧ ∀ c ∈ l, c ≠ '\n' := by
            have e := List.takeWhile_append_dropWhile (p := fun c => c != '\n') (l := t)
            have hl : ∀ c ∈ t.takeWhile (fun c => c != '\n'), c ≠ '\n' := fun c hc => by simpa using mem_takeWhile hc
            cases hd : t.dropWhile (fun c => c != '\n') with
            | nil =>
              rw [hd, List.append_nil] at e
              rw [e] at hl
              rw [foldl_next_comment hl] at h1
              cases h1
            | cons d t2 =>
              have := dropWhile_head hd
              have : d = '\n' := by simpa using this
              subst this
              exact ⟨_, t2, by rw [← hd, e], hl⟩
          obtain ⟨l, t2, rfl, hl⟩ := line
          have h2 : Outside t2 := by
            rw [foldl_next_app, foldl_next_comment hl] at h1
            exact h1
          have hk2 : t2.length < k := by simp at hk; omega
          by_cases hr : ∀ c ∈ l, c ≠ '\r'
          · have hl' : ∀ c ∈ l, c ≠ '\r' ∧ c ≠ '\n' := fun c hc => ⟨hr c hc, hl c hc⟩
            rcases ih _ hk2 h2 rfl with hw | ⟨w, u, rfl, hw, hu, hs⟩
            · exact .inl (.comment hl' hw)
            · exact .inr ⟨';' :: l ++ '\n' :: w, u, by simp, .comment hl' hw, hu, hs⟩
          · -- a carriage return in the line
            have split : ∃ l1 l2, l = l1 ++ '\r' :: l2 ∧ ∀ c ∈ l1, c ≠ '\r' := by
              have e := List.takeWhile_append_dropWhile (p := fun c => c != '\r') (l := l)
              have hl1 : ∀ c ∈ l.takeWhile (fun c => c != '\r'), c ≠ '\r' := fun c hc => by simpa using mem_takeWhile hc
              cases hd : l.dropWhile (fun c => c != '\r') with
              | nil =>
                rw [hd, List.append_nil] at e
                rw [e] at hl1
                exact absurd hl1 hr
              | cons d t2 =>
                have := dropWhile_head hd
                have : d = '\r' := by simpa using this
                subst this
                exact ⟨_, t2, by rw [← hd, e], hl1⟩
            obtain ⟨l1, l2, rfl, hr1⟩ := split
            have hl1 : ∀ c ∈ l1, c ≠ '\r' ∧ c ≠ '\n' := fun c hc => ⟨hr1 c hc, hl c (by simp [hc])⟩
            cases l2 with
            | nil =>
              rcases ih _ hk2 h2 rfl with hw | ⟨w, u, rfl, hw, hu, hs⟩
              · exact .inl (by simpa using WS.commentCr hl1 hw)
              · exact .inr ⟨';' :: l1 ++ '\r' :: '\n' :: w, u, by simp, .commentCr hl1 hw, hu, hs⟩
            | cons d l2 =>
              refine .inr ⟨[], _, rfl, .nil, h, fun r => ⟨[], ?_⟩⟩
              have hd : d ≠ '\n' := hl d (by simp)
              obtain ⟨e1, h3⟩ : ∃ e, multispace1 (';' :: (l1 ++ '\r' :: d :: l2 ++ '\n' :: t2) ++ r) = .err e :=
                takeWhile1_err (by simp [NotHead]; decide)
              have h4 : notLineEnding (l1 ++ '\r' :: d :: (l2 ++ '\n' :: t2 ++ r)) =
                  .err (unparseable (l1 ++ '\r' :: d :: (l2 ++ '\n' :: t2 ++ r))) := by
                have h := takeWhile_all (f := fun c => c != '\r' && c != '\n') (t := l1)
                  (r := '\r' :: d :: (l2 ++ '\n' :: t2 ++ r)) (by intro c hc; simpa using hl1 c hc) (by simp [NotHead])
                simp only [notLineEnding, h.1, h.2]
                split
                · rename_i heq
                  cases heq
                  exact absurd rfl hd
                · rfl
                · rename_i h
                  exact absurd rfl (h _)
              refine .stop (e := unparseable (l1 ++ '\r' :: d :: (l2 ++ '\n' :: t2 ++ r))) ?_
              simp only [alt, h3, comment, preceded]
              rw [List.cons_append, chr_ok]
              simp only [PR.bind]
              simpa using h4
        · exact .inr ⟨[], c :: t, rfl, .nil, h, fun r => wsTo_stop (by
            show ¬ (Blank c ∨ c = ';')
            rintro (h | h)
            · exact hb h
            · exact hc h)⟩

/-! ## How much a parser consumes -/

/-- When `p` succeeds, it has consumed at least `n` characters. -/
def Takes {α : Type} (n : Nat) (p : P α) : Prop := ∀ i k a, p i = .ok k a → k.length + n ≤ i.length

section
variable {α β γ : Type} {n m : Nat} {p : P α} {q : P β}

theorem Takes.weak (h : Takes n p) (hm : m ≤ n) : Takes m p := fun i k a e => Nat.le_trans (by omega) (h i k a e)

theorem Takes.pmap (f : α → β) (h : Takes n p) : Takes n (pmap f p) := by
  intro i k b e
  simp only [Cddl.pmap] at e
  cases hp : p i with
  | ok r a =>
    rw [hp] at e
    cases e
    exact h i _ a hp
  | _ => rw [hp] at e; cases e

theorem Takes.preceded (h : Takes n p) (h' : Takes m q) : Takes (n + m) (preceded p q) := by
  intro i k b e
  simp only [Cddl.preceded] at e
  cases hp : p i with
  | ok r a =>
    rw [hp] at e
    have := h i r a hp
    have := h' r k b e
    omega
  | _ => rw [hp] at e; cases e

theorem Takes.terminated (h : Takes n p) (h' : Takes m q) : Takes (n + m) (terminated p q) := by
  intro i k b e
  simp only [Cddl.terminated] at e
  cases hp : p i with
  | ok r a =>
    rw [hp] at e
    simp only [PR.bind] at e
    cases hq : q r with
    | ok r' c =>
      rw [hq] at e
      cases e
      have := h i r _ hp
      have := h' r _ _ hq
      omega
    | _ => rw [hq] at e; cases e
  | _ => rw [hp] at e; cases e

theorem Takes.pair (h : Takes n p) (h' : Takes m q) : Takes (n + m) (pair p q) := by
  intro i k b e
  simp only [Cddl.pair] at e
  cases hp : p i with
  | ok r a =>
    rw [hp] at e
    simp only [PR.bind] at e
    cases hq : q r with
    | ok r' c =>
      rw [hq] at e
      cases e
      have := h i r _ hp
      have := h' r _ _ hq
      omega
    | _ => rw [hq] at e; cases e
  | _ => rw [hp] at e; cases e

theorem Takes.opt (h : Takes n p) : Takes 0 (opt p) := by
  intro i k b e
  simp only [Cddl.opt] at e
  cases hp : p i with
  | ok r a =>
    rw [hp] at e
    cases e
    have := h i _ a hp
    omega
  | err _ =>
    rw [hp] at e
    cases e
    exact Nat.le_refl _
  | _ => rw [hp] at e; cases e

theorem Takes.alt {q : P α} (h : Takes n p) (h' : Takes n q) : Takes n (alt p q) := by
  intro i k b e
  simp only [Cddl.alt] at e
  cases hp : p i with
  | err _ => rw [hp] at e; exact h' i k b e
  | _ => rw [hp] at e; exact h i k b (hp.trans e)

theorem Takes.many0 (h : Takes n p) : Takes 0 (many0 p) := by
  have key : ∀ m i k as, many0Loop p m i = .ok k as → k.length ≤ i.length := by
    intro m
    induction m with
    | zero => intro i k as e; cases e
    | succ m ih =>
      intro i k as e
      simp only [many0Loop] at e
      cases hp : p i with
      | ok r a =>
        rw [hp] at e
        dsimp only at e
        split at e
        · cases e
        · cases hm : many0Loop p m r with
          | ok r' bs =>
            rw [hm] at e
            cases e
            have := ih _ _ _ hm
            have := h i r a hp
            omega
          | _ => rw [hm] at e; cases e
      | err _ => rw [hp] at e; cases e; exact Nat.le_refl _
      | _ => rw [hp] at e; cases e
  intro i k as e
  exact key _ i k as e

theorem Takes.sepList1 {q : P β} (h : Takes n p) (h' : Takes m q) : Takes n (sepList1 q p) := by
  have key : ∀ m i k as, sepLoop q p m i = .ok k as → k.length ≤ i.length := by
    intro m
    induction m with
    | zero => intro i k as e; cases e
    | succ m ih =>
      intro i k as e
      simp only [sepLoop] at e
      cases hq : q i with
      | ok r0 b =>
        rw [hq] at e
        dsimp only at e
        split at e
        · cases e
        · cases hp : p r0 with
          | ok r a =>
            rw [hp] at e
            dsimp only at e
            cases hm : sepLoop q p m r with
            | ok r' bs =>
              rw [hm] at e
              cases e
              have := ih _ _ _ hm
              have := h r0 r a hp
              have := h' i r0 b hq
              omega
            | _ => rw [hm] at e; cases e
          | err _ => rw [hp] at e; cases e; exact Nat.le_refl _
          | _ => rw [hp] at e; cases e
      | err _ => rw [hq] at e; cases e; exact Nat.le_refl _
      | _ => rw [hq] at e; cases e
  intro i k as e
  simp only [Cddl.sepList1] at e
  cases hp : p i with
  | ok r a =>
    rw [hp] at e
    simp only [PR.bind] at e
    cases hm : sepLoop q p (r.length + 1) r with
    | ok r' bs =>
      rw [hm] at e
      cases e
      have := key _ _ _ _ hm
      have := h i r a hp
      omega
    | _ => rw [hm] at e; cases e
  | _ => rw [hp] at e; cases e

theorem takes_of_parses {R : List Char → List Char → List Char → Prop} (hR : ReadRel R) {G : List Char → α → Prop}
    (h : ∀ n, ParsesTo R n p G) (hG : ∀ s a, G s a → s ≠ []) : Takes 1 p := by
  intro i k a e
  have := h i.length i (Nat.le_refl _)
  rw [e] at this
  obtain ⟨s, h1, h2⟩ := this
  exact hR.lt h1 (hG s a h2)

theorem takes_ws : Takes 0 ws := by
  intro i k a e
  have := trim_length i
  rw [trim_of_ws e] at this
  omega

theorem takes_satisfy (f : Char → Bool) : Takes 1 (satisfy f) := by
  intro i k a e
  cases i with
  | nil => cases e
  | cons c i =>
    simp only [satisfy] at e
    split at e
    · cases e
      simp
    · cases e

theorem takes_tag {t : String} (ht : t.toList ≠ []) : Takes 1 (tag t) :=
  takes_of_parses exactRel (fun _ => sound_tag exactRel t) (by rintro s a ⟨rfl, -⟩; exact ht)

end

/-! ## Two runs -/

/-- What two runs come to.  `near`: both have stopped before the gap, with `I` of what is left up to it.  `far`: both have got to the same place behind it
(not if `loc`).  The values are equal if `V`.  The outcome `oof` is no outcome of the code. -/
inductive Rel {α : Type} (I : List Char → Prop) (r r' : List Char) (loc V : Bool) : PR α → PR α → Prop
  | near {a b} (t) : I t → (V = true → a = b) → Rel I r r' loc V (.ok (t ++ r) a) (.ok (t ++ r') b)
  | far {a b} (k) : loc = false → (V = true → a = b) → Rel I r r' loc V (.ok k a) (.ok k b)
  | err (e e') : Rel I r r' loc V (.err e) (.err e')
  | fail (e e') : Rel I r r' loc V (.fail e) (.fail e')
  | panic : Rel I r r' loc V .panic .panic
  | oofL (y) : Rel I r r' loc V .oof y
  | oofR (y) : Rel I r r' loc V y .oof

/-- The parser does the same on both texts, begun where `I` and stopping where `J` holds of what is left up to the gap. -/
def Sim {α : Type} (I J : List Char → Prop) (r r' : List Char) (loc V : Bool) (p : P α) : Prop :=
  ∀ t, I t → Rel J r r' loc V (p (t ++ r)) (p (t ++ r'))

section
variable {α β γ : Type} {I J K : List Char → Prop} {r r' : List Char} {loc V : Bool} {p : P α} {q : P β}

theorem Rel.refl (x : PR α) : Rel I r r' false V x x := by
  cases x with
  | ok k a => exact .far k rfl fun _ => rfl
  | err e => exact .err _ _
  | fail e => exact .fail _ _
  | panic => exact .panic
  | oof => exact .oofL _

theorem Rel.weak {x y : PR α} (h : Rel I r r' true V x y) : Rel I r r' loc V x y := by
  cases h with
  | near t h1 h2 => exact .near t h1 h2
  | far k h _ => cases h
  | err e e' => exact .err _ _
  | fail e => exact .fail _ _
  | panic => exact .panic
  | oofL => exact .oofL _
  | oofR => exact .oofR _

theorem Rel.drop {x y : PR α} (h : Rel I r r' loc true x y) : Rel I r r' loc V x y := by
  cases h with
  | near t h1 h2 => exact .near t h1 fun _ => h2 rfl
  | far k h h2 => exact .far k h fun _ => h2 rfl
  | err e e' => exact .err _ _
  | fail e => exact .fail _ _
  | panic => exact .panic
  | oofL => exact .oofL _
  | oofR => exact .oofR _

theorem Sim.weak (h : Sim I J r r' true V p) : Sim I J r r' loc V p := fun t ht => (h t ht).weak
theorem Sim.drop (h : Sim I J r r' loc true p) : Sim I J r r' loc V p := fun t ht => (h t ht).drop

theorem Rel.bind {V W : Bool} {x y : PR α} {f g : List Char → α → PR β} (h : Rel I r r' loc V x y)
    (hn : ∀ t a b, I t → (V = true → a = b) → Rel J r r' loc W (f (t ++ r) a) (g (t ++ r') b))
    (hf : loc = false → ∀ k a b, (V = true → a = b) → Rel J r r' loc W (f k a) (g k b)) :
    Rel J r r' loc W (x.bind f) (y.bind g) := by
  cases h with
  | near t h1 h2 => exact hn t _ _ h1 h2
  | far k h h2 => exact hf h k _ _ h2
  | err e e' => exact .err _ _
  | fail e => exact .fail _ _
  | panic => exact .panic
  | oofL => exact .oofL _
  | oofR => exact .oofR _

theorem Rel.ifOk {V W : Bool} {x y : PR α} {f g : List Char → α → PR β} {u v : PR β} (h : Rel I r r' loc V x y)
    (hn : ∀ t a b, I t → (V = true → a = b) → Rel J r r' loc W (f (t ++ r) a) (g (t ++ r') b))
    (hf : loc = false → ∀ k a b, (V = true → a = b) → Rel J r r' loc W (f k a) (g k b)) (hu : Rel J r r' loc W u v) :
    Rel J r r' loc W (Cddl.ifOk x f u) (Cddl.ifOk y g v) := by
  cases h with
  | near t h1 h2 => exact hn t _ _ h1 h2
  | far k h h2 => exact hf h k _ _ h2
  | err e e' => exact hu
  | fail e => exact hu
  | panic => exact .panic
  | oofL => exact .oofL _
  | oofR => exact .oofR _

theorem Rel.same {x : PR α} (h : loc = false) : Rel I r r' loc V x x := h ▸ Rel.refl x

theorem Sim.pmap (f : α → β) (h : Sim I J r r' loc V p) : Sim I J r r' loc V (pmap f p) := fun t ht =>
  (h t ht).bind (fun t a b ht e => .near t ht fun hV => congrArg f (e hV)) fun hl k a b e => .far k hl fun hV => congrArg f (e hV)

theorem Sim.const (c : β) (h : Sim I J r r' loc false p) : Sim I J r r' loc V (Cddl.pmap (fun _ => c) p) := fun t ht =>
  (h t ht).bind (fun t a b ht _ => .near t ht fun _ => rfl) fun hl k a b _ => .far k hl fun _ => rfl

theorem Sim.pair (h : Sim I J r r' loc V p) (h' : Sim J K r r' loc V q) : Sim I K r r' loc V (pair p q) := fun t ht =>
  (h t ht).bind
    (fun t a b ht e => (h' t ht).bind (fun t c d ht e' => .near t ht fun hV => by rw [e hV, e' hV])
      fun hl k c d e' => .far k hl fun hV => by rw [e hV, e' hV])
    fun hl k a b e => (Rel.same (V := V) hl).bind (fun t c d ht e' => .near t ht fun hV => by rw [e hV, e' hV])
      fun hl k c d e' => .far k hl fun hV => by rw [e hV, e' hV]

theorem Sim.preceded (h : Sim I J r r' loc false p) (h' : Sim J K r r' loc V q) : Sim I K r r' loc V (preceded p q) := fun t ht =>
  (h t ht).bind (fun t _ _ ht _ => h' t ht) fun hl _ _ _ _ => .same hl

theorem Sim.terminated (h : Sim I J r r' loc V p) (h' : Sim J K r r' loc false q) : Sim I K r r' loc V (terminated p q) := fun t ht =>
  (h t ht).bind
    (fun t _ _ ht e => (h' t ht).bind (fun t _ _ ht _ => .near t ht e) fun hl k _ _ _ => .far k hl e)
    fun hl _ _ _ e => (Rel.same (V := false) hl).bind (fun t _ _ ht _ => .near t ht e) fun hl k _ _ _ => .far k hl e

theorem Sim.delimited {L : List Char → Prop} {s : P γ} (h : Sim I J r r' loc false p) (h' : Sim J K r r' loc V q)
    (h'' : Sim K L r r' loc false s) : Sim I L r r' loc V (delimited p q s) := h.preceded (h'.terminated h'')

theorem Sim.opt (h : Sim I I r r' loc V p) : Sim I I r r' loc V (opt p) := fun t ht => by
  have := h t ht
  simp only [Cddl.opt]
  generalize p (t ++ r) = x at this ⊢
  generalize p (t ++ r') = y at this ⊢
  cases this with
  | near t h1 h2 => exact .near t h1 fun hV => by rw [h2 hV]
  | far k h h2 => exact .far k h fun hV => by rw [h2 hV]
  | err e e' => exact .near t ht fun _ => rfl
  | fail e => exact .fail _ _
  | panic => exact .panic
  | oofL => exact .oofL _
  | oofR => exact .oofR _

theorem Sim.alt {q : P α} (h : Sim I J r r' loc V p) (h' : Sim I J r r' loc V q) : Sim I J r r' loc V (alt p q) := fun t ht => by
  have := h t ht
  simp only [Cddl.alt]
  generalize p (t ++ r) = x at this ⊢
  generalize p (t ++ r') = y at this ⊢
  cases this with
  | near t h1 h2 => exact .near t h1 h2
  | far k h h2 => exact .far k h h2
  | err e e' => exact h' t ht
  | fail e => exact .fail _ _
  | panic => exact .panic
  | oofL => exact .oofL _
  | oofR x =>
    cases x with
    | err e => exact .oofR _
    | _ => exact .oofR _

theorem many0Loop_same (h : loc = false) : ∀ (k m : Nat) (i : List Char), Rel I r r' loc V (many0Loop p k i) (many0Loop p m i)
  | 0, _, _ => .oofL _
  | k + 1, 0, _ => .oofR _
  | k + 1, m + 1, i => by
    simp only [many0Loop]
    cases p i with
    | ok s a =>
      dsimp only
      split
      · exact .err _ _
      · exact (many0Loop_same h k m s).bind (fun t c d ht e' => .near t ht fun hV => by rw [e' hV])
          fun hl k c d e' => .far k hl fun hV => by rw [e' hV]
    | err => exact .same h
    | fail => exact .fail _ _
    | panic => exact .panic
    | oof => exact .oofL _

theorem Sim.many0 (h : Sim I I r r' loc V p) (hp : loc = false → Takes 1 p) : Sim I I r r' loc V (many0 p) := by
  have key : ∀ (k m : Nat) t, I t → Rel I r r' loc V (many0Loop p k (t ++ r)) (many0Loop p m (t ++ r')) := by
    intro k
    induction k with
    | zero => exact fun _ _ _ => .oofL _
    | succ k ih =>
      intro m t ht
      cases m with
      | zero => exact .oofR _
      | succ m =>
        have := h t ht
        simp only [many0Loop]
        cases hx : p (t ++ r) with
        | ok s a =>
          cases hy : p (t ++ r') with
          | ok s' a' =>
            rw [hx, hy] at this
            dsimp only
            cases this with
            | near t1 h1 h2 =>
              by_cases hl : t1.length = t.length
              · rw [if_pos (by simp [hl]), if_pos (by simp [hl])]
                exact .err _ _
              · rw [if_neg (by simpa using hl), if_neg (by simpa using hl)]
                exact (ih m t1 h1).bind (fun t c d ht e' => .near t ht fun hV => by rw [h2 hV, e' hV])
                  fun hl k c d e' => .far k hl fun hV => by rw [h2 hV, e' hV]
            | far _ hl h2 =>
              have e1 := hp hl _ _ _ hx
              have e2 := hp hl _ _ _ hy
              rw [if_neg (by omega), if_neg (by omega)]
              exact (many0Loop_same hl k m s).bind (fun t c d ht e' => .near t ht fun hV => by rw [h2 hV, e' hV])
                fun hl k c d e' => .far k hl fun hV => by rw [h2 hV, e' hV]
          | oof => exact .oofR _
          | _ => rw [hx, hy] at this; cases this
        | err e =>
          cases hy : p (t ++ r') with
          | err e' => exact .near t ht fun _ => rfl
          | oof => exact .oofR _
          | _ => rw [hx, hy] at this; cases this
        | fail e =>
          cases hy : p (t ++ r') with
          | fail e' => exact .fail _ _
          | oof => exact .oofR _
          | _ => rw [hx, hy] at this; cases this
        | panic =>
          cases hy : p (t ++ r') with
          | panic => exact .panic
          | oof => exact .oofR _
          | _ => rw [hx, hy] at this; cases this
        | oof => exact .oofL _
  exact fun t ht => key _ _ t ht

theorem Sim.many1 (h : Sim I I r r' loc V p) (hp : loc = false → Takes 1 p) : Sim I I r r' loc V (many1 p) := fun t ht =>
  (h t ht).bind
    (fun t a b ht e => (h.many0 hp t ht).bind (fun t c d ht e' => .near t ht fun hV => by rw [e hV, e' hV])
      fun hl k c d e' => .far k hl fun hV => by rw [e hV, e' hV])
    fun hl k a b e => (Rel.same (V := V) hl).bind (fun t c d ht e' => .near t ht fun hV => by rw [e hV, e' hV])
      fun hl k c d e' => .far k hl fun hV => by rw [e hV, e' hV]

theorem sepLoop_same (h : loc = false) : ∀ (k m : Nat) (i : List Char), Rel I r r' loc V (sepLoop q p k i) (sepLoop q p m i)
  | 0, _, _ => .oofL _
  | k + 1, 0, _ => .oofR _
  | k + 1, m + 1, i => by
    simp only [sepLoop]
    cases q i with
    | ok s a =>
      dsimp only
      split
      · exact .err _ _
      · cases p s with
        | ok s' b =>
          exact (sepLoop_same h k m s').bind (fun t c d ht e' => .near t ht fun hV => by rw [e' hV])
            fun hl k c d e' => .far k hl fun hV => by rw [e' hV]
        | err => exact .same h
        | fail => exact .fail _ _
        | panic => exact .panic
        | oof => exact .oofL _
    | err => exact .same h
    | fail => exact .fail _ _
    | panic => exact .panic
    | oof => exact .oofL _

theorem sepLoop_sim (h : Sim I I r r' loc V p) (h' : Sim I I r r' loc false q) (hq : loc = false → Takes 1 q) :
    ∀ (k m : Nat) t, I t → Rel I r r' loc V (sepLoop q p k (t ++ r)) (sepLoop q p m (t ++ r'))
  | 0, _, _, _ => .oofL _
  | k + 1, 0, _, _ => .oofR _
  | k + 1, m + 1, t, ht => by
    have hs := h' t ht
    simp only [sepLoop]
    -- what happens behind the separator
    have item : ∀ {x y : PR α}, Rel I r r' loc V x y → Rel I r r' loc V
        (match x with
          | .ok r' a => (sepLoop q p k r').bind fun r'' as => .ok r'' (a :: as)
          | .err _ => .ok (t ++ r) []
          | .fail e => .fail e
          | .panic => .panic
          | .oof => .oof)
        (match y with
          | .ok r' a => (sepLoop q p m r').bind fun r'' as => .ok r'' (a :: as)
          | .err _ => .ok (t ++ r') []
          | .fail e => .fail e
          | .panic => .panic
          | .oof => .oof) := by
      intro x y hxy
      cases hxy with
      | near t1 h1 h2 =>
        exact (sepLoop_sim h h' hq k m t1 h1).bind (fun t c d ht e' => .near t ht fun hV => by rw [h2 hV, e' hV])
          fun hl k c d e' => .far k hl fun hV => by rw [h2 hV, e' hV]
      | far k0 hl h2 =>
        exact (sepLoop_same hl k m k0).bind (fun t c d ht e' => .near t ht fun hV => by rw [h2 hV, e' hV])
          fun hl k c d e' => .far k hl fun hV => by rw [h2 hV, e' hV]
      | err => exact .near t ht fun _ => rfl
      | fail => exact .fail _ _
      | panic => exact .panic
      | oofL => exact .oofL _
      | oofR => exact .oofR _
    cases hx : q (t ++ r) with
    | ok s a =>
      cases hy : q (t ++ r') with
      | ok s' a' =>
        rw [hx, hy] at hs
        dsimp only
        cases hs with
        | near t1 h1 h2 =>
          by_cases hl : t1.length = t.length
          · rw [if_pos (by simp [hl]), if_pos (by simp [hl])]
            exact .err _ _
          · rw [if_neg (by simpa using hl), if_neg (by simpa using hl)]
            exact item (h t1 h1)
        | far _ hl h2 =>
          have e1 := hq hl _ _ _ hx
          have e2 := hq hl _ _ _ hy
          rw [if_neg (by omega), if_neg (by omega)]
          exact item (.same hl)
      | oof => exact .oofR _
      | _ => rw [hx, hy] at hs; cases hs
    | err e =>
      cases hy : q (t ++ r') with
      | err e' => exact .near t ht fun _ => rfl
      | oof => exact .oofR _
      | _ => rw [hx, hy] at hs; cases hs
    | fail e =>
      cases hy : q (t ++ r') with
      | fail e' => exact .fail _ _
      | oof => exact .oofR _
      | _ => rw [hx, hy] at hs; cases hs
    | panic =>
      cases hy : q (t ++ r') with
      | panic => exact .panic
      | oof => exact .oofR _
      | _ => rw [hx, hy] at hs; cases hs
    | oof => exact .oofL _

theorem Sim.sepList1 (h : Sim I I r r' loc V p) (h' : Sim I I r r' loc false q) (hq : loc = false → Takes 1 q) :
    Sim I I r r' loc V (sepList1 q p) := fun t ht =>
  (h t ht).bind
    (fun t a b ht e => (sepLoop_sim h h' hq _ _ t ht).bind (fun t c d ht e' => .near t ht fun hV => by rw [e hV, e' hV])
      fun hl k c d e' => .far k hl fun hV => by rw [e hV, e' hV])
    fun hl k a b e => (sepLoop_same (V := V) hl _ _ k).bind (fun t c d ht e' => .near t ht fun hV => by rw [e hV, e' hV])
      fun hl k c d e' => .far k hl fun hV => by rw [e hV, e' hV]

theorem take_gap (t t1 r : List Char) : (t ++ r).take ((t ++ r).length - (t1 ++ r).length) = t.take (t.length - t1.length) := by
  rw [List.length_append, List.length_append, Nat.add_sub_add_right, List.take_append_of_le_length (Nat.sub_le _ _)]

theorem Sim.recognize (h : Sim I J r r' true false p) : Sim I J r r' true V (recognize p) := fun t ht =>
  (h t ht).bind (fun t1 a b ht _ => .near t1 ht fun _ => by rw [take_gap, take_gap]) fun hl => by cases hl

theorem Sim.recognizer (h : Sim I J r r' true V p) : Sim I J r r' true V (recognizer p) := fun t ht =>
  (h t ht).bind (fun t1 a b ht e => .near t1 ht fun hV => by rw [take_gap, take_gap, e hV]) fun hl => by cases hl

theorem Sim.mapResFail (f : α → Except ParseError β) (h : Sim I J r r' loc true p) : Sim I J r r' loc V (mapResFail p f) := fun t ht =>
  (h t ht).bind
    (fun t1 a b ht e => by
      rw [e rfl]
      cases f b with
      | ok c => exact .near t1 ht fun _ => rfl
      | error e => exact .fail _ _)
    fun hl k a b e => by rw [e rfl]; exact .same hl

theorem Sim.mapRes (f : α → Except ParseError β) (h : Sim I J r r' loc true p) : Sim I J r r' loc V (mapRes p f) := fun t ht =>
  (h t ht).bind
    (fun t1 a b ht e => by
      rw [e rfl]
      cases f b with
      | ok c => exact .near t1 ht fun _ => rfl
      | error e => exact .err _ _)
    fun hl k a b e => by rw [e rfl]; exact .same hl

end

end Cddl
