import Verif.Proofs.ParseRunTok
import Verif.Proofs.ParseSound

/-!
# How the texts of the grammar begin, and what may follow them
-/

namespace Cddl

open Ast (Ty Ty1 Ty2 MemberKeyVal GrpEntVal GrpEnt Group GrpChoice RuleVal)

variable {x : ParseExt}

/-! ## The text behind white space -/

/-- The text that `ws` leaves. -/
def trim (i : List Char) : List Char :=
  match ws i with
  | .ok u _ => u
  | _ => i

theorem trim_of_ws {i u t : List Char} (h : ws i = .ok u t) : trim i = u := by simp only [trim, h]

theorem ws_trim (i : List Char) : ∃ t, ws i = .ok (trim i) t := by
  obtain ⟨u, t, _, h, -⟩ := ws_prefix .nil i
  exact ⟨t, by rw [trim_of_ws h, h]⟩

theorem trim_ws {w : List Char} (hw : WS w) (i : List Char) : trim (w ++ i) = trim i := by
  obtain ⟨u, t, t', h, h'⟩ := ws_prefix hw i
  rw [trim_of_ws h, trim_of_ws h']

theorem trim_noWs {u : List Char} (h : NoWs u) : trim u = u := by
  obtain ⟨t, h⟩ := (wsTo_stop h).ws
  exact trim_of_ws h

theorem trim_reads (i : List Char) : ∃ w, WS w ∧ Reads i (trim i) w := by
  obtain ⟨r, t, s, h1, h2, h3, -⟩ := ws_spec i
  rw [trim_of_ws h1]
  exact ⟨s, h3, h2⟩

theorem trim_length (i : List Char) : (trim i).length ≤ i.length := by
  obtain ⟨w, -, h | ⟨-, h, -⟩⟩ := trim_reads i
  · have := congrArg List.length h
    simp at this
    omega
  · rw [h]; simp

/-- If something is left behind white space, then all of the white space is in the text. -/
theorem trim_split {i : List Char} {c : Char} {u : List Char} (h : trim i = c :: u) : ∃ w, WS w ∧ i = w ++ c :: u := by
  obtain ⟨w, hw, h' | ⟨-, h', -⟩⟩ := trim_reads i
  · exact ⟨w, hw, by rw [← h]; exact h'⟩
  · rw [h'] at h; cases h

/-! ## First characters -/

/-- Characters that begin an entry or a type: neither white space nor punctuation. -/
def Starter (c : Char) : Prop := c ∉ " \t\r\n;./,)]}:^=>".toList

instance (c : Char) : Decidable (Starter c) := by unfold Starter; infer_instance

theorem starter_ealpha {c : Char} (h : EAlpha c) : Starter c := by
  intro hm
  have key : ∀ c ∈ " \t\r\n;./,)]}:^=>".toList, ¬ EAlpha c := by unfold EAlpha; decide
  exact key c hm h

theorem starter_digit {c : Char} (h : Digit c) : Starter c := by
  intro hm
  have key : ∀ c ∈ " \t\r\n;./,)]}:^=>".toList, ¬ Digit c := by unfold Digit; decide
  exact key c hm h

theorem Starter.noWs {c : Char} (h : Starter c) (i : List Char) : NoWs (c :: i) := by
  intro hb
  rcases hb with (rfl | rfl | rfl | rfl) | rfl <;> exact absurd h (by decide)

theorem Starter.trim {c : Char} (h : Starter c) (i : List Char) : trim (c :: i) = c :: i := trim_noWs (h.noWs i)

/-- The text begins an entry or a type. -/
def Starts (s : List Char) : Prop := ∃ c t, s = c :: t ∧ Starter c

theorem Starts.app {s : List Char} (h : Starts s) (r : List Char) : Starts (s ++ r) := by
  obtain ⟨c, t, rfl, hc⟩ := h
  exact ⟨c, t ++ r, rfl, hc⟩

theorem Starts.trim {s : List Char} (h : Starts s) : trim s = s := by
  obtain ⟨c, t, rfl, hc⟩ := h
  exact hc.trim t

theorem Starts.ne {s : List Char} (h : Starts s) : s ≠ [] := by
  obtain ⟨c, t, rfl, hc⟩ := h
  simp

theorem Starts.notHead {s : List Char} (h : Starts s) {p : Char → Prop} (hp : ∀ c, p c → ¬ Starter c) : NotHead p s := by
  obtain ⟨c, t, rfl, hc⟩ := h
  exact fun h => hp c h hc

theorem Ident.starts {s : List Char} (h : Ident s) : Starts s := by
  cases h with
  | mk h _ => exact ⟨_, _, rfl, starter_ealpha h⟩

theorem UintText.starts {s : List Char} {n : Nat} (h : UintText s n) : Starts s := by
  obtain ⟨c, t, rfl, hc⟩ := h.head
  exact ⟨_, _, rfl, starter_digit hc⟩

theorem ValueText.starts {st : Bool} {s : List Char} {v : Ast.Value} (h : ValueText x st s v) : Starts s := by
  cases h with
  | uint h _ => exact h.starts
  | nint _ _ => exact ⟨_, _, rfl, by decide⟩
  | float hsg h _ _ _ _ _ =>
    rcases hsg with rfl | rfl
    · exact ((h.starts.app _).app _)
    · exact ⟨_, _, rfl, by decide⟩
  | text _ _ => exact ⟨_, _, rfl, by decide⟩
  | bytes _ _ => exact ⟨_, _, rfl, by decide⟩
  | hex _ _ => exact ⟨_, _, rfl, by decide⟩
  | base64 _ _ => exact ⟨_, _, rfl, by decide⟩

theorem GName.starts {st s n as} (h : GName x st s n as) : Starts s := by
  cases h with
  | plain h => exact h.starts
  | generic h _ _ => exact h.starts.app _

theorem GTy2.starts {st s t} (h : GTy2 x st s t) : Starts s := by
  cases h with
  | value h => exact h.starts
  | name h => exact h.starts
  | parens _ _ _ => exact ⟨_, _, rfl, by decide⟩
  | map _ _ _ => exact ⟨_, _, rfl, by decide⟩
  | array _ _ _ => exact ⟨_, _, rfl, by decide⟩
  | unwrap _ _ => exact ⟨_, _, rfl, by decide⟩
  | inline _ _ _ _ => exact ⟨_, _, rfl, by decide⟩
  | choiceify _ _ => exact ⟨_, _, rfl, by decide⟩

theorem GTy1.starts {st s t} (h : GTy1 x st s t) : Starts s := by
  cases h with
  | simple h => exact h.starts
  | range h _ _ _ _ => exact h.starts.app _
  | rangeExcl h _ _ _ _ => exact h.starts.app _
  | control h _ _ _ _ _ => exact h.starts.app _

theorem GTy.starts {st s t} (h : GTy x st s t) : Starts s := by
  cases h with
  | one h => exact h.starts
  | cons h _ _ _ => exact (h.starts.app _).app _

theorem GVal.starts {st s v} (h : GVal x st s v) : Starts s := by
  cases h with
  | bareword h _ _ _ => exact ((h.starts.app _).app _).app _
  | value h _ _ _ => exact ((h.starts.app _).app _).app _
  | type1 h _ _ _ => exact ((h.starts.app _).app _).app _
  | cut h _ _ _ _ => exact (((h.starts.app _).app _).app _).app _
  | member h _ _ => exact h.starts.app _
  | groupname h _ => exact h.starts
  | parens _ _ _ _ => exact ⟨_, _, rfl, by decide⟩
  | comma _ _ _ _ _ => exact ⟨_, _, rfl, by decide⟩

theorem OccurText.starts {s o} (h : OccurText s o) : Starts s := by
  cases h with
  | optional => exact ⟨_, _, rfl, by decide⟩
  | plus => exact ⟨_, _, rfl, by decide⟩
  | star => exact ⟨_, _, rfl, by decide⟩
  | lower h _ => exact h.starts.app _
  | upper _ _ => exact ⟨_, _, rfl, by decide⟩
  | both h _ _ _ => exact h.starts.app _

theorem GEntry.starts {st s e} (h : GEntry x st s e) : Starts s := by
  cases h with
  | plain h => exact h.starts
  | occur h _ _ _ => exact (h.starts.app _).app _

theorem GChoice.starts {st s e es} (h : GChoice x st s (e :: es)) : Starts s := by
  cases h with
  | cons h _ _ _ => exact (h.starts.app _).app _

/-! ## What may follow -/

/-- A text that may follow any type. -/
def Safe (r : List Char) : Prop :=
  NotHead (fun c => EAlpha c ∨ Digit c ∨ c = '-' ∨ c = '.' ∨ c = '\'' ∨ c = '<' ∨ c = '*') r

theorem blank_safe {c : Char} (h : Blank c ∨ c = ';') :
    ¬ (EAlpha c ∨ Digit c ∨ c = '-' ∨ c = '.' ∨ c = '\'' ∨ c = '<' ∨ c = '*') := by
  rcases h with (rfl | rfl | rfl | rfl) | rfl <;> unfold EAlpha Digit <;> decide

/-- Begins with white space. -/
theorem WS.head {w : List Char} (h : WS w) : w = [] ∨ ∃ c t, w = c :: t ∧ (Blank c ∨ c = ';') := by
  cases h with
  | nil => exact .inl rfl
  | blank hc _ => exact .inr ⟨_, _, rfl, .inl hc⟩
  | comment _ _ => exact .inr ⟨_, _, rfl, .inr rfl⟩
  | commentCr _ _ => exact .inr ⟨_, _, rfl, .inr rfl⟩

theorem safe_ws {w r : List Char} (hw : WS w) (hr : Safe r) : Safe (w ++ r) := by
  rcases hw.head with rfl | ⟨c, t, rfl, hc⟩
  · exact hr
  · exact blank_safe hc

theorem safe_of_trim {r : List Char} {c : Char} {u : List Char} (h : trim r = c :: u) (hc : Safe [c]) : Safe r := by
  obtain ⟨w, hw, rfl⟩ := trim_split h
  exact safe_ws hw hc

theorem Safe.afterIdent {r : List Char} (h : Safe r) : AfterIdent r :=
  NotHead.imp h fun c hc => by
    rcases hc with h | h | h | h | h | h <;> simp [h]

theorem Safe.afterNumber {r : List Char} (h : Safe r) : AfterNumber r := by
  unfold AfterNumber
  split
  · exact absurd (.inr (.inr (.inr (.inl rfl)))) h
  · exact NotHead.imp h fun c hc => by
      rcases hc with h | h | h <;> simp [h]

theorem Safe.ty2 {r : List Char} (h : Safe r) (t : Ty2) : AfterTy2 t r := by
  unfold AfterTy2
  split
  · exact h.afterNumber
  · exact h.afterNumber
  · exact h.afterNumber
  · exact h.afterIdent
  · exact h.afterIdent
  · exact h.afterIdent
  · trivial

theorem Safe.ty1 {r : List Char} (h : Safe r) (t : Ty1) : AfterTy1 t r := by
  cases t <;> exact h.ty2 _

theorem Safe.ty {r : List Char} (h : Safe r) (t : Ty) : AfterTy t r := fun u _ => h.ty1 u

theorem Safe.val {r : List Char} (h : Safe r) {s v} (hv : GVal x true s v) : AfterVal v r := by
  cases hv with
  | bareword _ _ _ _ => exact h.ty _
  | value _ _ _ _ => exact h.ty _
  | type1 _ _ _ _ => exact h.ty _
  | cut _ _ _ _ _ => exact h.ty _
  | member _ _ _ => exact h.ty _
  | groupname _ h => cases h
  | parens _ _ _ _ => trivial
  | comma _ _ _ _ _ => trivial

theorem NotHead.ext {p : Char → Prop} {a b : List Char} (h : NotHead p a) (hne : a ≠ []) : NotHead p (a ++ b) := by
  cases a with
  | nil => exact absurd rfl hne
  | cons c a => exact h

theorem AfterNumber.ext {a b : List Char} (h : AfterNumber a) (hne : a ≠ []) (hd : a ≠ ['.']) : AfterNumber (a ++ b) := by
  cases a with
  | nil => exact absurd rfl hne
  | cons c a =>
    by_cases hc : c = '.'
    · subst hc
      cases a with
      | nil => exact absurd rfl hd
      | cons d a => exact h
    · have h1 : AfterNumber (c :: a) = NotHead (fun c => EAlpha c ∨ Digit c ∨ c = '*') (c :: a) := by
        unfold AfterNumber
        split
        · rename_i heq; simp at heq; exact absurd heq.1 hc
        · rfl
      have h2 : AfterNumber (c :: a ++ b) = NotHead (fun c => EAlpha c ∨ Digit c ∨ c = '*') (c :: a) := by
        unfold AfterNumber
        split
        · rename_i heq; simp at heq; exact absurd heq.1 hc
        · rfl
      rw [h2, ← h1]
      exact h

theorem AfterTy2.ext {t : Ty2} {a b : List Char} (h : AfterTy2 t a) (hne : a ≠ []) (hd : a ≠ ['.']) :
    AfterTy2 t (a ++ b) := by
  unfold AfterTy2 at h ⊢
  split
  · exact h.ext hne hd
  · exact h.ext hne hd
  · exact h.ext hne hd
  · exact NotHead.ext h hne
  · exact NotHead.ext h hne
  · exact NotHead.ext h hne
  · trivial

theorem AfterTy1.ext {t : Ty1} {a b : List Char} (h : AfterTy1 t a) (hne : a ≠ []) (hd : a ≠ ['.']) :
    AfterTy1 t (a ++ b) := by
  cases t <;> exact AfterTy2.ext h hne hd

theorem AfterTy.ext {t : Ty} {a b : List Char} (h : AfterTy t a) (hne : a ≠ []) (hd : a ≠ ['.']) :
    AfterTy t (a ++ b) := fun u hu => (h u hu).ext hne hd

theorem AfterVal.ext {v : GrpEntVal} {a b : List Char} (h : AfterVal v a) (hne : a ≠ []) (hd : a ≠ ['.']) :
    AfterVal v (a ++ b) := by
  cases v with
  | member t => exact AfterTy.ext h hne hd
  | keyed _ _ t => exact AfterTy.ext h hne hd
  | groupname _ => exact h
  | parens _ => trivial

theorem AfterOccur.ext {o : OccurLimit} {a b : List Char} (h : AfterOccur o a) (hne : a ≠ []) :
    AfterOccur o (a ++ b) := by
  cases o with
  | optional => trivial
  | oneOrMore => trivial
  | zeroOrMore => exact NotHead.ext h hne
  | numbered _ _ => exact NotHead.ext h hne

/-! ## A type begins with a `type2` -/

theorem ws_dots {w s : List Char} (hs : ∀ t, s ≠ '.' :: t) (hw : WS w) : ∀ t, w ++ s ≠ '.' :: t := by
  intro t h
  rcases hw.head with rfl | ⟨c, w', rfl, hc⟩
  · exact hs t h
  · simp at h
    obtain ⟨rfl, -⟩ := h
    rcases hc with (h | h | h | h) | h <;> revert h <;> decide

theorem GTy1.first {s t rest} (h : GTy1 x true s t) (hr : AfterTy1 t rest) :
    ∃ s1 a r1, s ++ rest = s1 ++ r1 ∧ GTy2 x true s1 a ∧ AfterTy2 a r1 := by
  cases h with
  | simple h => exact ⟨_, _, rest, rfl, h, hr⟩
  | @range s a w w' s' b h hw hw' h' ha =>
    refine ⟨s, a, (w ++ ['.', '.']) ++ (w' ++ s' ++ rest), by simp, h, (ha rfl).ext (by simp) ?_⟩
    intro h; have := congrArg List.length h; simp at this
  | @rangeExcl s a w w' s' b h hw hw' h' ha =>
    refine ⟨s, a, (w ++ ['.', '.']) ++ ('.' :: (w' ++ s' ++ rest)), by simp, h, (ha rfl).ext (by simp) ?_⟩
    intro h; have := congrArg List.length h; simp at this
  | @control s a w op w' s' b h hw hop hw' h' ha =>
    refine ⟨s, a, (w ++ '.' :: op) ++ (w' ++ s' ++ rest), by simp, h, (ha rfl).1.ext (by simp) ?_⟩
    intro h
    have := congrArg List.length h
    have := List.length_pos_iff.2 hop.ne
    simp at *
    omega

theorem safe_punct {c : Char} (h : c ∈ "/,)]}:^=>".toList) (r : List Char) : Safe (c :: r) := by
  have key : ∀ c ∈ "/,)]}:^=>".toList,
      ¬ (EAlpha c ∨ Digit c ∨ c = '-' ∨ c = '.' ∨ c = '\'' ∨ c = '<' ∨ c = '*') := by unfold EAlpha Digit; decide
  exact key c h

theorem slash_safe {w : List Char} (hw : WS w) (r : List Char) : Safe (w ++ '/' :: r) :=
  safe_ws hw (safe_punct (by decide) r)

theorem GTy.first {s t rest} (h : GTy x true s t) (hr : AfterTy t rest) :
    ∃ s1 a r1, s ++ rest = s1 ++ r1 ∧ GTy2 x true s1 a ∧ AfterTy2 a r1 := by
  cases h with
  | one h => exact h.first (hr _ rfl)
  | @cons s t w w' s' ts h hw hw' h' =>
    obtain ⟨s1, a, r1, e, h1, h2⟩ := h.first (rest := w ++ '/' :: (w' ++ s' ++ rest)) ((slash_safe hw _).ty1 _)
    exact ⟨s1, a, r1, by rw [← e]; simp, h1, h2⟩

/-- Text of a type does not begin an occurrence. -/
theorem GTy2.noOccur {s t r} (h : GTy2 x true s t) (hr : AfterTy2 t r) : NoOccur (s ++ r) := by
  have hid : ∀ {s : List Char}, Ident s → ∀ r, NoOccur (s ++ r) := by
    intro s h r
    cases h with
    | @mk c t hc ht =>
      left
      intro hx
      have key : ∀ c ∈ "*+?".toList, ¬ EAlpha c := by unfold EAlpha; decide
      rcases hx with h | h
      · exact ealpha_digit hc h
      · exact key c (by rcases h with rfl | rfl | rfl <;> decide) hc
  have hp : ∀ c ∈ "({[~&\"'-hb".toList, ∀ r, NoOccur (c :: r) := by
    intro c hc r
    left
    have key : ∀ c ∈ "({[~&\"'-hb".toList, ¬ (Digit c ∨ c = '*' ∨ c = '+' ∨ c = '?') := by unfold Digit; decide
    exact key c hc
  cases h with
  | value h =>
    cases h with
    | uint h hn => exact .inr ⟨s, _, r, rfl, h, hn, AfterNumber.uintEnd hr s, (AfterNumber.notHead hr).imp fun c hc =>
        .inr (.inr hc)⟩
    | nint _ _ => exact hp _ (by decide) _
    | @float sg u n fr ex f hsg h hs hfr hex hne _ =>
      rcases hsg with rfl | rfl
      · refine .inr ⟨u, n, fr ++ (ex ++ r), by simp, h, (hs rfl).1, .inr ⟨(hs rfl).2, float_end hfr hex hr⟩, ?_⟩
        exact hfr.notHead (by decide) (hex.notHead (by decide) ((AfterNumber.notHead hr).imp fun c hc =>
          .inr (.inr hc)))
      · exact hp _ (by decide) _
    | text _ _ => exact hp _ (by decide) _
    | bytes _ _ => exact hp _ (by decide) _
    | hex _ _ => exact hp _ (by decide) _
    | base64 _ _ => exact hp _ (by decide) _
  | name h =>
    cases h with
    | plain h => exact hid h _
    | generic h _ _ => rw [List.append_assoc]; exact hid h _
  | parens _ _ _ => exact hp _ (by decide) _
  | map _ _ _ => exact hp _ (by decide) _
  | array _ _ _ => exact hp _ (by decide) _
  | unwrap _ _ => exact hp _ (by decide) _
  | inline _ _ _ _ => exact hp _ (by decide) _
  | choiceify _ _ => exact hp _ (by decide) _
where
  ealpha_digit {c : Char} (h : EAlpha c) : ¬ Digit c := by
    intro hd
    have key : ∀ c ∈ "0123456789".toList, ¬ EAlpha c := by unfold EAlpha; decide
    exact key c (digit_cases hd) h

theorem GVal.noOccur {s v r} (h : GVal x true s v) (hr : AfterVal v r) : NoOccur (s ++ r) := by
  have hcolon : ∀ {w : List Char}, WS w → ∀ c ∈ "/,)]}:^=>".toList, ∀ r, Safe (w ++ c :: r) :=
    fun hw _ hc r => safe_ws hw (safe_punct hc r)
  cases h with
  | @bareword k w w' s t h hw _ _ =>
    have := (GTy2.name (x := x) (strict := true) (.plain h)).noOccur (r := w ++ ':' :: (w' ++ s ++ r))
      ((hcolon hw ':' (by decide) _).ty2 _)
    simpa using this
  | @value k v w w' s t h hw _ _ =>
    have := (GTy2.value h).noOccur (r := w ++ ':' :: (w' ++ s ++ r)) ((hcolon hw ':' (by decide) _).ty2 _)
    simpa using this
  | @type1 k u w w' s t h hw _ _ =>
    obtain ⟨s1, a, r1, e, h1, h2⟩ := h.first (rest := w ++ '=' :: ('>' :: w' ++ s ++ r))
      ((hcolon hw '=' (by decide) _).ty1 _)
    have := h1.noOccur h2
    rw [← e] at this
    simpa using this
  | @cut k u w v w' s t h hw _ _ _ =>
    obtain ⟨s1, a, r1, e, h1, h2⟩ := h.first (rest := w ++ '^' :: (v ++ '=' :: '>' :: w' ++ s ++ r))
      ((hcolon hw '^' (by decide) _).ty1 _)
    have := h1.noOccur h2
    rw [← e] at this
    simpa using this
  | @member s t w h _ hs =>
    rw [hs rfl, List.append_nil]
    obtain ⟨s1, a, r1, e, h1, h2⟩ := h.first hr
    rw [e]
    exact h1.noOccur h2
  | groupname _ h => cases h
  | parens _ _ _ _ =>
    left
    simp only [List.cons_append, NotHead]
    unfold Digit
    decide
  | comma _ _ _ _ _ =>
    left
    simp only [List.cons_append, NotHead]
    unfold Digit
    decide

end Cddl
