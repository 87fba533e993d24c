import Verif.Spec.ParseDepth
import Verif.Proofs.ParseMono

/-!
# The depth of the recursion and the opening brackets

The recursive parsers are entered again only after an opening bracket has been read.
-/

namespace Cddl

open Ast (Ty Ty1 Ty2 MemberKeyVal GrpEntVal GrpEnt Group GrpChoice RuleVal)

/-- The budget was enough, and what is left is the end of the text. -/
def PR.Fine {α : Type} (i : List Char) : PR α → Prop
  | .ok r _ => r <:+ i
  | .oof => False
  | _ => True

/-- `PR.Fine` for texts with at most `n` openers. -/
def PFine {α : Type} (n : Nat) (p : P α) : Prop := ∀ i, openers i ≤ n → (p i).Fine i

theorem openers_suffix {r i : List Char} (h : r <:+ i) : openers r ≤ openers i := by
  obtain ⟨s, rfl⟩ := h
  simp [openers]

section
variable {α β γ : Type} {n : Nat}

theorem PR.Fine.up {a : PR α} {r i : List Char} (h : a.Fine r) (hr : r <:+ i) : a.Fine i := by
  cases a with
  | ok r' x => exact List.IsSuffix.trans h hr
  | oof => exact h
  | _ => trivial

theorem PR.Fine.bind {a : PR α} {f : List Char → α → PR β} {i : List Char} (h : a.Fine i)
    (hf : ∀ r x, r <:+ i → (f r x).Fine r) : (a.bind f).Fine i := by
  cases a with
  | ok r x => exact (hf r x h).up h
  | oof => exact h
  | _ => trivial

theorem PR.Fine.ret {i : List Char} {a : α} : (PR.ok i a).Fine i := List.suffix_refl i

theorem PFine.mono {m : Nat} {p : P α} (h : PFine n p) (hm : m ≤ n) : PFine m p := fun i hi => h i (Nat.le_trans hi hm)

theorem PFine.pmap {p : P α} (f : α → β) (h : PFine n p) : PFine n (pmap f p) :=
  fun i hi => (h i hi).bind fun _ _ _ => .ret

theorem PFine.preceded {p : P α} {q : P β} (h : PFine n p) (h' : PFine n q) : PFine n (preceded p q) :=
  fun i hi => (h i hi).bind fun _ _ hr => h' _ (Nat.le_trans (openers_suffix hr) hi)

theorem PFine.pair {p : P α} {q : P β} (h : PFine n p) (h' : PFine n q) : PFine n (pair p q) :=
  fun i hi => (h i hi).bind fun _ _ hr => (h' _ (Nat.le_trans (openers_suffix hr) hi)).bind fun _ _ _ => .ret

theorem PFine.terminated {p : P α} {q : P β} (h : PFine n p) (h' : PFine n q) : PFine n (terminated p q) :=
  fun i hi => (h i hi).bind fun _ _ hr => (h' _ (Nat.le_trans (openers_suffix hr) hi)).bind fun _ _ _ => .ret

theorem PFine.delimited {p : P α} {q : P β} {s : P γ} (h : PFine n p) (h' : PFine n q) (h'' : PFine n s) :
    PFine n (delimited p q s) := h.preceded (h'.terminated h'')

theorem PFine.opt {p : P α} (h : PFine n p) : PFine n (opt p) := fun i hi => by
  have := h i hi
  simp only [Cddl.opt]
  cases hp : p i <;> rw [hp] at this
  · exact this
  · exact .ret
  · trivial
  · trivial
  · exact this

theorem PFine.alt {p q : P α} (h : PFine n p) (h' : PFine n q) : PFine n (alt p q) := fun i hi => by
  have := h i hi
  simp only [Cddl.alt]
  cases hp : p i <;> rw [hp] at this
  · exact this
  · exact h' i hi
  · trivial
  · trivial
  · exact this

theorem length_lt_of_suffix {r i : List Char} (h : r <:+ i) (hl : ¬ r.length = i.length) : r.length < i.length :=
  Nat.lt_of_le_of_ne h.length_le hl

theorem PFine.many0 {p : P α} (h : PFine n p) : PFine n (many0 p) := by
  have key : ∀ k i, openers i ≤ n → i.length < k → (many0Loop p k i).Fine i := by
    intro k
    induction k with
    | zero => intro i _ hl; exact absurd hl (Nat.not_lt_zero _)
    | succ k ih =>
      intro i hi hl
      have := h i hi
      simp only [many0Loop]
      cases hp : p i <;> rw [hp] at this
      · rename_i r a
        dsimp only
        split
        · trivial
        · rename_i hne
          refine PR.Fine.up ((ih r (Nat.le_trans (openers_suffix this) hi) ?_).bind fun _ _ _ => .ret) this
          have := length_lt_of_suffix this hne
          omega
      · exact .ret
      · trivial
      · trivial
      · exact this
  exact fun i hi => key _ i hi (Nat.lt_succ_self _)

theorem PFine.many1 {p : P α} (h : PFine n p) : PFine n (many1 p) :=
  fun i hi => (h i hi).bind fun _ _ hr => (h.many0 _ (Nat.le_trans (openers_suffix hr) hi)).bind fun _ _ _ => .ret

theorem PFine.sepList1 {p : P α} {s : P β} (hs : PFine n s) (h : PFine n p) : PFine n (sepList1 s p) := by
  have key : ∀ k i, openers i ≤ n → i.length < k → (sepLoop s p k i).Fine i := by
    intro k
    induction k with
    | zero => intro i _ hl; exact absurd hl (Nat.not_lt_zero _)
    | succ k ih =>
      intro i hi hl
      have h1 := hs i hi
      simp only [sepLoop]
      cases hsi : s i <;> rw [hsi] at h1
      · rename_i r b
        dsimp only
        split
        · trivial
        · rename_i hne
          have hr := length_lt_of_suffix h1 hne
          have ho := Nat.le_trans (openers_suffix h1) hi
          have h2 := h r ho
          cases hp : p r <;> rw [hp] at h2
          · rename_i r' a
            have h2' : r' <:+ r := h2
            refine PR.Fine.up (PR.Fine.up ((ih r' (Nat.le_trans (openers_suffix h2) ho) ?_).bind fun _ _ _ => .ret) h2') h1
            have := h2'.length_le
            omega
          · exact .ret
          · trivial
          · trivial
          · exact h2
      · exact .ret
      · trivial
      · trivial
      · exact h1
  exact fun i hi => (h i hi).bind fun r _ hr =>
    (key _ r (Nat.le_trans (openers_suffix hr) hi) (Nat.lt_succ_self _)).bind fun _ _ _ => .ret

theorem PR.Fine.ifOk {a : PR α} {f : List Char → α → PR β} {c : PR β} {i : List Char} (h : a.Fine i)
    (hf : ∀ r x, r <:+ i → (f r x).Fine r) (hc : c.Fine i) : (ifOk a f c).Fine i := by
  cases a with
  | ok r x => exact (hf r x h).up h
  | err e => exact hc
  | fail e => exact hc
  | oof => exact h
  | panic => trivial

/-- After an opener, fewer are left. -/
theorem PFine.enter {p : P α} {q : P β} (h : PFine n p) (hp : ∀ i r a, p i = .ok r a → openers r < openers i)
    (h' : ∀ m, m < n → PFine m q) : PFine n (Cddl.preceded p q) := fun i hi => by
  have h1 := h i hi
  simp only [Cddl.preceded]
  cases hpi : p i <;> rw [hpi] at h1
  · rename_i r a
    exact PR.Fine.up (h' (openers r) (Nat.lt_of_lt_of_le (hp i r a hpi) hi) r (Nat.le_refl _)) h1
  · trivial
  · trivial
  · trivial
  · exact h1

theorem Reads.isTail {i r s : List Char} (h : Reads i r s) : r <:+ i := by
  rcases h with rfl | ⟨-, rfl, -⟩
  · exact List.suffix_append _ _
  · exact List.nil_suffix

theorem PFine.reads {p : P α} {G : List Char → α → Prop} (h : ∀ m, ParsesTo Reads m p G) : PFine n p := fun i _ => by
  have := h _ i (Nat.le_refl _)
  cases hp : p i <;> rw [hp] at this
  · obtain ⟨s, hs, -⟩ := this
    exact hs.isTail
  · trivial
  · trivial
  · trivial
  · exact this

theorem PFine.exact {p : P α} {G : List Char → α → Prop} (h : ∀ m, ParsesTo Exact m p G) : PFine n p :=
  PFine.reads fun m => (h m).exact readsRel

theorem fine_ws : PFine n ws := .reads fun _ => sound_ws
theorem fine_tag (t : String) : PFine n (tag t) := .reads fun _ => sound_tag readsRel t
theorem fine_ident : PFine n ident := .exact fun _ => sound_ident

theorem fine_chr (c : Char) : PFine n (chr c) := fun i _ => by
  cases i with
  | nil => trivial
  | cons d i =>
    simp only [chr, satisfy]
    split
    · exact List.suffix_cons _ _
    · trivial

theorem chr_enter {c : Char} (hc : opensDeeper c = true) (i r : List Char) (a : Char) (h : chr c i = .ok r a) :
    openers r < openers i := by
  cases i with
  | nil => exact (nomatch h)
  | cons d i =>
    simp only [chr, satisfy] at h
    split at h
    · rename_i hd
      have : opensDeeper d = true := by rw [beq_iff_eq] at hd; rw [hd]; exact hc
      injection h with h1 h2
      subst h1
      simp [openers, this]
    · exact (nomatch h)

theorem langle_enter (i r : List Char) (a) (h : pair (tag "<") ws i = .ok r a) : openers r < openers i := by
  simp only [pair, tag] at h
  cases i with
  | nil => exact (nomatch h)
  | cons d i =>
    by_cases hd : '<' = d
    · subst hd
      have e : stripPrefix "<".toList ('<' :: i) = some i := rfl
      rw [e] at h
      have hw := fine_ws (n := openers i) i (Nat.le_refl _)
      dsimp only [PR.bind] at h
      cases hwi : ws i <;> rw [hwi] at h hw <;> dsimp only [PR.bind] at h <;> cases h
      have := openers_suffix hw
      have e : openers ('<' :: i) = openers i + 1 := by simp [openers, opensDeeper]
      omega
    · have e : stripPrefix "<".toList (d :: i) = none := by
        show (if '<' = d then _ else _) = _
        rw [if_neg hd]
      rw [e] at h
      exact (nomatch h)

theorem fine_optcom : PFine n optcom := .reads fun _ => sound_optcom
theorem fine_slash : PFine n slash := fine_ws.delimited (fine_tag _) fine_ws

end

theorem fine_assemble (key : Ty1) (value : Ty) (rest : List Char) : (assembleBasicMember key value rest).Fine rest := by
  unfold assembleBasicMember
  split
  · exact .ret
  · split
    · exact .ret
    · trivial
  · trivial

section
variable {x : ParseExt} {r : PRec} {n : Nat} (ht : PFine n r.type2)
include ht

theorem fine_type1 : PFine n (type1 r) :=
  (ht.pair (PFine.opt (fine_ws.preceded (((fine_tag _).alt ((fine_tag _).alt ((fine_tag _).preceded fine_ident))).pair
    (fine_ws.preceded ht))))).pmap _

theorem fine_ty : PFine n (ty r) := fine_slash.sepList1 (fine_type1 ht)

theorem fine_memberRest (t : Ast.Ty1) : PFine n (memberRest r t) := fun i hi =>
  PR.Fine.ifOk (((PFine.opt ((fine_tag _).terminated fine_ws)).pair ((fine_tag _).preceded (fine_ws.preceded (fine_ty ht)))) i hi)
    (fun _ _ _ => .ret)
    (PR.Fine.ifOk ((PFine.many0 (fine_slash.preceded (fine_type1 ht))) i hi) (fun _ _ _ => .ret) trivial)

theorem fine_grpentMember : PFine n (grpentMember r) := fun i hi => by
  refine (((fine_type1 ht).terminated fine_ws) i hi).bind fun i' first hr => ?_
  have hi' := Nat.le_trans (openers_suffix hr) hi
  have h1 := (((fine_tag ":").pair fine_ws).preceded (fine_ty ht)) i' hi'
  split
  · exact PR.Fine.ifOk h1 (fun _ _ _ => fine_assemble _ _ _) (fine_memberRest ht _ i' hi')
  · exact PR.Fine.ifOk h1 (fun _ _ _ => fine_assemble _ _ _) (fine_memberRest ht _ i' hi')
  · exact fine_memberRest ht _ i' hi'

theorem fine_grpent (hg : ∀ m, m < n → PFine m r.group) : PFine n (grpent r) :=
  ((PFine.opt ((PFine.exact fun _ => sound_occur).terminated fine_ws)).pair ((fine_grpentMember ht).alt
    ((fine_ident.pmap _).alt ((PFine.enter (fine_chr _) (chr_enter (by decide)) fun m hm =>
      (fine_ws.delimited (hg m hm) fine_ws).terminated (fine_chr _)).pmap _)))).pmap _

theorem fine_group (hg : ∀ m, m < n → PFine m r.group) : PFine n (group r) :=
  have h := (fine_grpent ht hg).terminated fine_optcom |>.many0
  (h.pair (PFine.many0 ((fine_ws.delimited (fine_tag _) fine_ws).preceded h))).pmap _

end

section
variable {x : ParseExt} {r : PRec} {n : Nat}

theorem fine_type2 (ht : ∀ m, m < n → PFine m r.type2) (hg : ∀ m, m < n → PFine m r.group) : PFine n (type2 x r) := by
  have hb : ∀ {α : Type} {p : P α} (c d : Char), opensDeeper c = true → (∀ m, m < n → PFine m p) →
      PFine n (delimited (chr c) (delimited ws p ws) (chr d)) :=
    fun c d hc hp => PFine.enter (fine_chr _) (chr_enter hc) fun m hm => (fine_ws.delimited (hp m hm) fine_ws).terminated (fine_chr _)
  have hn : PFine n (nameGenericP r) :=
    (fine_ident.pair (PFine.opt (PFine.enter ((fine_tag _).pair fine_ws) langle_enter fun m hm =>
      (((fine_tag _).pair fine_ws).sepList1 ((fine_type1 (ht m hm)).terminated fine_ws)).terminated (fine_tag _)))).pmap _
  exact ((PFine.exact fun _ => sound_value x).pmap _).alt <| (hn.pmap _).alt <|
    (PFine.pmap _ (hb _ _ (by decide) fun m hm => fine_ty (ht m hm))).alt <|
    (PFine.pmap _ (hb _ _ (by decide) hg)).alt <| (PFine.pmap _ (hb _ _ (by decide) hg)).alt <|
    (PFine.pmap _ ((fine_tag _).preceded (fine_ws.preceded hn))).alt <|
    (PFine.pmap _ ((fine_tag _).preceded (fine_ws.preceded (hb _ _ (by decide) hg)))).alt
      (PFine.pmap _ ((fine_tag _).preceded (fine_ws.preceded hn)))

theorem fine_parsers (k : Nat) : (∀ n, 2 * n + 1 ≤ k → PFine n (parsers x k).type2) ∧ (∀ n, 2 * n + 2 ≤ k → PFine n (parsers x k).group) := by
  induction k with
  | zero => exact ⟨fun n hn => by omega, fun n hn => by omega⟩
  | succ k ih =>
    exact ⟨fun n hn => fine_type2 (fun m hm => ih.1 m (by omega)) (fun m hm => ih.2 m (by omega)),
      fun n hn => fine_group (ih.1 n (by omega)) (fun m hm => ih.2 m (by omega))⟩

theorem fine_cddlWith {k : Nat} (hk : 2 * n + 1 ≤ k) : PFine n (cddlWith (parsers x k)) := by
  have ht := (fine_parsers (x := x) k).1 n hk
  have hg : ∀ m, m < n → PFine m (parsers x k).group := fun m hm => (fine_parsers k).2 m (by omega)
  have h1 : PFine n (ruleValWith (parsers x k)) :=
    (fine_tag _).preceded (fine_ws.preceded (((fine_ty ht).pmap _).alt ((fine_grpent ht hg).pmap _)))
  have h2 : PFine n genericParm :=
    ((fine_tag _).pair fine_ws).delimited (((fine_tag _).pair fine_ws).sepList1 (fine_ident.terminated fine_ws)) (fine_tag _)
  have h3 : PFine n (ruleWith (parsers x k)) := ((fine_ident.pair h2.opt).pair (fine_ws.preceded h1)).pmap _
  exact fine_ws.preceded (PFine.many1 (h3.terminated fine_ws))

theorem cddlWith_mono {r r' : PRec} (h : RLe r r') : PLe (cddlWith r) (cddlWith r') := by
  have h1 : PLe (ruleValWith r) (ruleValWith r') :=
    (PLe.refl _).preceded ((PLe.refl _).preceded (((ty_mono h).pmap _).alt ((grpent_mono h).pmap _)))
  have h2 : PLe (ruleWith r) (ruleWith r') := ((PLe.refl _).pair ((PLe.refl _).preceded h1)).pmap _
  have h3 := h2.terminated (PLe.refl ws)
  exact (PLe.refl _).preceded fun i => (h3 i).bind fun r _ => (h3.many0 r).bind fun _ _ => .refl _

theorem cddlWith_rec : cddlWith (parserRec x) = cddl x := rfl

end

end Cddl
