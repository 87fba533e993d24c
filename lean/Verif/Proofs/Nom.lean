import Verif.Model.Nom

/-!
# What a parser consumes

`ParsesTo R n p G`: on texts of at most `n` characters the parser `p` neither panics nor exhausts its budget, and when
it succeeds it has consumed, in the sense of `R`, a text that `G` relates to its result.
-/

namespace Cddl

/-- A relation between input, rest and consumed text. -/
structure ReadRel (R : List Char → List Char → List Char → Prop) : Prop where
  exact : ∀ s r, R (s ++ r) r s
  trans : ∀ {i r r' s s'}, R i r s → R r r' s' → R i r' (s ++ s')
  step : ∀ {i r s}, R i r s → (s = [] ∧ r = i) ∨ r.length < i.length

/-- The consumed text is a prefix. -/
def Exact (i r s : List Char) : Prop := i = s ++ r

/-- The consumed text is a prefix, or all of the input with a line ending added (an unterminated final comment). -/
def Reads (i r s : List Char) : Prop := i = s ++ r ∨ (i ≠ [] ∧ r = [] ∧ s = i ++ ['\n'])

theorem exactRel : ReadRel Exact where
  exact s r := rfl
  trans {i r r' s s'} h h' := by simp only [Exact] at *; simp [h, h']
  step {i r s} h := by
    simp only [Exact] at h; subst h
    cases s with
    | nil => simp
    | cons c s => right; simp; omega

theorem readsRel : ReadRel Reads where
  exact s r := .inl rfl
  trans {i r r' s s'} h h' := by
    rcases h with h | ⟨h1, h2, h3⟩
    · rcases h' with h' | ⟨h1', h2', h3'⟩
      · exact .inl (by simp [h, h'])
      · refine .inr ⟨?_, h2', ?_⟩
        · rw [h]; simp [h1']
        · rw [h3', h]; simp
    · rcases h' with h' | ⟨h1', h2', h3'⟩
      · rw [h2] at h'
        have := List.append_eq_nil_iff.1 h'.symm
        exact .inr ⟨h1, this.2, by simp [this.1, h3]⟩
      · exact absurd h2 h1'
  step {i r s} h := by
    rcases h with h | ⟨h1, h2, h3⟩
    · exact exactRel.step h
    · right; rw [h2]; exact List.length_pos_iff.2 h1

theorem Exact.reads {i r s : List Char} (h : Exact i r s) : Reads i r s := .inl h

namespace ReadRel
variable {R : List Char → List Char → List Char → Prop} (hR : ReadRel R)
include hR
theorem refl (i : List Char) : R i i [] := hR.exact [] i
theorem le {i r s : List Char} (h : R i r s) : r.length ≤ i.length := by
  rcases hR.step h with ⟨_, h⟩ | h
  · rw [h]; exact Nat.le_refl _
  · exact Nat.le_of_lt h
theorem lt {i r s : List Char} (h : R i r s) (hs : s ≠ []) : r.length < i.length := by
  rcases hR.step h with ⟨h, _⟩ | h
  · exact absurd h hs
  · exact h
end ReadRel

/-- The outcome of a parser on `i` is as `ParsesTo` demands. -/
def PR.Good {α : Type} (R : List Char → List Char → List Char → Prop) (G : List Char → α → Prop) (i : List Char) :
    PR α → Prop
  | .ok r a => ∃ s, R i r s ∧ G s a
  | .err _ => True
  | .fail _ => True
  | .panic => False
  | .oof => False

def ParsesTo {α : Type} (R : List Char → List Char → List Char → Prop) (n : Nat) (p : P α)
    (G : List Char → α → Prop) : Prop := ∀ i, i.length ≤ n → (p i).Good R G i

section
variable {α β γ : Type} {R : List Char → List Char → List Char → Prop} {n : Nat}

theorem PR.Good.imp {x : PR α} {G H : List Char → α → Prop} {i : List Char} (h : x.Good R G i)
    (hi : ∀ s a, G s a → H s a) : x.Good R H i := by
  cases x with
  | ok r a => obtain ⟨s, h1, h2⟩ := h; exact ⟨s, h1, hi s a h2⟩
  | _ => exact h

theorem PR.Good.bind (hR : ReadRel R) {x : PR α} {f : List Char → α → PR β} {G : List Char → α → Prop}
    {K : List Char → β → Prop} {i : List Char} (hx : x.Good R G i)
    (hf : ∀ r s a, R i r s → G s a → (f r a).Good R (fun s' b => K (s ++ s') b) r) : (x.bind f).Good R K i := by
  cases x with
  | ok r a =>
    obtain ⟨s, h1, h2⟩ := hx
    have := hf r s a h1 h2
    revert this
    simp only [PR.bind]
    cases f r a with
    | ok r' b => rintro ⟨s', h3, h4⟩; exact ⟨s ++ s', hR.trans h1 h3, h4⟩
    | _ => exact id
  | _ => exact hx

theorem PR.Good.ret (hR : ReadRel R) {G : List Char → α → Prop} {i : List Char} {a : α} (h : G [] a) :
    (PR.ok i a).Good R G i := ⟨[], hR.refl i, h⟩

theorem ParsesTo.mono {p : P α} {G : List Char → α → Prop} {m : Nat} (h : ParsesTo R n p G) (hm : m ≤ n) :
    ParsesTo R m p G := fun i hi => h i (Nat.le_trans hi hm)

theorem ParsesTo.imp {p : P α} {G H : List Char → α → Prop} (h : ParsesTo R n p G)
    (hi : ∀ s a, G s a → H s a) : ParsesTo R n p H := fun i hl => (h i hl).imp hi

theorem ParsesTo.exact (hR : ReadRel R) {p : P α} {G : List Char → α → Prop} (h : ParsesTo Exact n p G) :
    ParsesTo R n p G := fun i hl => by
  have := h i hl
  revert this
  cases p i with
  | ok r a => rintro ⟨s, h1, h2⟩; exact ⟨s, by rw [h1]; exact hR.exact s r, h2⟩
  | _ => exact id

theorem sound_pmap {p : P α} {G : List Char → α → Prop} {H : List Char → β → Prop} {f : α → β}
    (h : ParsesTo R n p G) (hi : ∀ s a, G s a → H s (f a)) : ParsesTo R n (pmap f p) H := fun i hl => by
  have := h i hl
  simp only [pmap]
  revert this
  cases p i with
  | ok r a => rintro ⟨s, h1, h2⟩; exact ⟨s, h1, hi s a h2⟩
  | _ => exact id

theorem sound_pair (hR : ReadRel R) {p : P α} {q : P β} {G : List Char → α → Prop} {H : List Char → β → Prop}
    (hp : ParsesTo R n p G) (hq : ParsesTo R n q H) :
    ParsesTo R n (pair p q) (fun s ab => ∃ s1 s2, s = s1 ++ s2 ∧ G s1 ab.1 ∧ H s2 ab.2) := fun i hl => by
  refine (hp i hl).bind hR fun r s a h1 h2 => ?_
  refine (hq r (Nat.le_trans (hR.le h1) hl)).bind hR fun r' s' b h3 h4 => ?_
  exact PR.Good.ret hR ⟨s, s', by simp, h2, h4⟩

theorem sound_preceded (hR : ReadRel R) {p : P α} {q : P β} {G : List Char → α → Prop} {H : List Char → β → Prop}
    (hp : ParsesTo R n p G) (hq : ParsesTo R n q H) :
    ParsesTo R n (preceded p q) (fun s b => ∃ s1 s2 a, s = s1 ++ s2 ∧ G s1 a ∧ H s2 b) := fun i hl => by
  refine (hp i hl).bind hR fun r s a h1 h2 => ?_
  exact (hq r (Nat.le_trans (hR.le h1) hl)).imp fun s' b h4 => ⟨s, s', a, rfl, h2, h4⟩

/-- After a nonempty prefix the text is shorter. -/
theorem sound_preceded_lt (hR : ReadRel R) {p : P α} {q : P β} {G : List Char → α → Prop}
    {H : List Char → β → Prop} (hp : ParsesTo R n p G) (hne : ∀ s a, G s a → s ≠ [])
    (hq : ∀ m, m < n → ParsesTo R m q H) :
    ParsesTo R n (preceded p q) (fun s b => ∃ s1 s2 a, s = s1 ++ s2 ∧ G s1 a ∧ H s2 b) := fun i hl => by
  refine (hp i hl).bind hR fun r s a h1 h2 => ?_
  have := hR.lt h1 (hne s a h2)
  exact (hq r.length (by omega) r (Nat.le_refl _)).imp fun s' b h4 => ⟨s, s', a, rfl, h2, h4⟩

theorem sound_pair_lt (hR : ReadRel R) {p : P α} {q : P β} {G : List Char → α → Prop}
    {H : List Char → β → Prop} (hp : ParsesTo R n p G) (hne : ∀ s a, G s a → s ≠ [])
    (hq : ∀ m, m < n → ParsesTo R m q H) :
    ParsesTo R n (pair p q) (fun s ab => ∃ s1 s2, s = s1 ++ s2 ∧ G s1 ab.1 ∧ H s2 ab.2) := fun i hl => by
  refine (hp i hl).bind hR fun r s a h1 h2 => ?_
  have := hR.lt h1 (hne s a h2)
  refine (hq r.length (by omega) r (Nat.le_refl _)).bind hR fun r' s' b h3 h4 => ?_
  exact PR.Good.ret hR ⟨s, s', by simp, h2, h4⟩

theorem sound_terminated (hR : ReadRel R) {p : P α} {q : P β} {G : List Char → α → Prop}
    {H : List Char → β → Prop} (hp : ParsesTo R n p G) (hq : ParsesTo R n q H) :
    ParsesTo R n (terminated p q) (fun s a => ∃ s1 s2 b, s = s1 ++ s2 ∧ G s1 a ∧ H s2 b) := fun i hl => by
  refine (hp i hl).bind hR fun r s a h1 h2 => ?_
  refine (hq r (Nat.le_trans (hR.le h1) hl)).bind hR fun r' s' b h3 h4 => ?_
  exact PR.Good.ret hR ⟨s, s', b, by simp, h2, h4⟩

theorem sound_opt (hR : ReadRel R) {p : P α} {G : List Char → α → Prop} (hp : ParsesTo R n p G) :
    ParsesTo R n (opt p) (fun s o => (o = none ∧ s = []) ∨ ∃ a, o = some a ∧ G s a) := fun i hl => by
  have := hp i hl
  simp only [opt]
  revert this
  cases p i with
  | ok r a => rintro ⟨s, h1, h2⟩; exact ⟨s, h1, .inr ⟨a, rfl, h2⟩⟩
  | err e => intro _; exact PR.Good.ret hR (.inl ⟨rfl, rfl⟩)
  | _ => exact id

theorem sound_alt {p q : P α} {G : List Char → α → Prop} (hp : ParsesTo R n p G) (hq : ParsesTo R n q G) :
    ParsesTo R n (alt p q) G := fun i hl => by
  have := hp i hl
  simp only [alt]
  revert this
  cases p i with
  | err e => intro _; exact hq i hl
  | _ => exact id

/-- A sequence of texts of `G`. -/
inductive Star (G : List Char → α → Prop) : List Char → List α → Prop
  | nil : Star G [] []
  | cons {s a t as} : G s a → Star G t as → Star G (s ++ t) (a :: as)

theorem sound_many0 (hR : ReadRel R) {p : P α} {G : List Char → α → Prop} (hp : ParsesTo R n p G)
    (hne : ∀ s a, G s a → s ≠ []) : ParsesTo R n (many0 p) (Star G) := by
  have key : ∀ k i, i.length ≤ n → i.length < k → (many0Loop p k i).Good R (Star G) i := by
    intro k
    induction k with
    | zero => intro i _ h; exact absurd h (Nat.not_lt_zero _)
    | succ k ih =>
      intro i hl hk
      have := hp i hl
      simp only [many0Loop]
      revert this
      cases p i with
      | ok r a =>
        rintro ⟨s, h1, h2⟩
        have hlt := hR.lt h1 (hne s a h2)
        simp only
        rw [if_neg (by omega)]
        have hb := (ih r (by omega) (by omega)).bind hR (K := fun s' b => Star G (s ++ s') b)
          (f := fun r' as => .ok r' (a :: as)) fun r' s' as h3 h4 =>
            PR.Good.ret hR (by simpa using Star.cons h2 h4)
        revert hb
        cases (many0Loop p k r).bind fun r' as => PR.ok r' (a :: as) with
        | ok r' b => rintro ⟨s', h3, h4⟩; exact ⟨s ++ s', hR.trans h1 h3, h4⟩
        | _ => exact id
      | err e => intro _; exact PR.Good.ret hR .nil
      | _ => exact id
  exact fun i hl => key _ i hl (Nat.lt_succ_self _)

/-- A nonempty sequence of texts of `G`. -/
theorem sound_many1 (hR : ReadRel R) {p : P α} {G : List Char → α → Prop} (hp : ParsesTo R n p G)
    (hne : ∀ s a, G s a → s ≠ []) :
    ParsesTo R n (many1 p) (fun s as => ∃ s1 a s2 bs, s = s1 ++ s2 ∧ as = a :: bs ∧ G s1 a ∧ Star G s2 bs) :=
  fun i hl => by
  refine (hp i hl).bind hR fun r s a h1 h2 => ?_
  refine ((sound_many0 hR hp hne) r (Nat.le_trans (hR.le h1) hl)).bind hR fun r' s' as h3 h4 => ?_
  exact PR.Good.ret hR ⟨s, a, s', as, by simp, rfl, h2, h4⟩

/-- Texts of `G`, each preceded by a separator. -/
inductive SepTail (S : List Char → β → Prop) (G : List Char → α → Prop) : List Char → List α → Prop
  | nil : SepTail S G [] []
  | cons {c b s a t as} : S c b → G s a → SepTail S G t as → SepTail S G (c ++ (s ++ t)) (a :: as)

theorem sound_sepList1 (hR : ReadRel R) {sep : P β} {p : P α} {S : List Char → β → Prop}
    {G : List Char → α → Prop} (hs : ParsesTo R n sep S) (hne : ∀ s a, S s a → s ≠ []) (hp : ParsesTo R n p G) :
    ParsesTo R n (sepList1 sep p)
      (fun s as => ∃ s1 a s2 bs, s = s1 ++ s2 ∧ as = a :: bs ∧ G s1 a ∧ SepTail S G s2 bs) := by
  have key : ∀ k i, i.length ≤ n → i.length < k → (sepLoop sep p k i).Good R (SepTail S G) i := by
    intro k
    induction k with
    | zero => intro i _ h; exact absurd h (Nat.not_lt_zero _)
    | succ k ih =>
      intro i hl hk
      have := hs i hl
      simp only [sepLoop]
      revert this
      cases sep i with
      | ok r b =>
        rintro ⟨c, h1, h2⟩
        have hlt := hR.lt h1 (hne c b h2)
        simp only
        rw [if_neg (by omega)]
        have := hp r (by omega)
        revert this
        cases p r with
        | ok r' a =>
          rintro ⟨s, h3, h4⟩
          have hle := hR.le h3
          have hb := (ih r' (by omega) (by omega)).bind hR (K := fun s' b => SepTail S G (c ++ (s ++ s')) b)
            (f := fun r' as => .ok r' (a :: as)) fun r' s' as h5 h6 =>
              PR.Good.ret hR (by simpa using SepTail.cons h2 h4 h6)
          simp only
          revert hb
          cases (sepLoop sep p k r').bind fun r' as => PR.ok r' (a :: as) with
          | ok r'' b => rintro ⟨s', h5, h6⟩; exact ⟨c ++ (s ++ s'), hR.trans h1 (hR.trans h3 h5), h6⟩
          | _ => exact id
        | err e => intro _; exact PR.Good.ret hR .nil
        | _ => exact id
      | err e => intro _; exact PR.Good.ret hR .nil
      | _ => exact id
  intro i hl
  refine (hp i hl).bind hR fun r s a h1 h2 => ?_
  refine (key _ r (Nat.le_trans (hR.le h1) hl) (Nat.lt_succ_self _)).bind hR fun r' s' as h3 h4 => ?_
  exact PR.Good.ret hR ⟨s, a, s', as, by simp, rfl, h2, h4⟩

theorem take_consumed (s r : List Char) : (s ++ r).take ((s ++ r).length - r.length) = s := by
  simp

theorem sound_recognize {p : P α} {G : List Char → α → Prop} (hp : ParsesTo Exact n p G) :
    ParsesTo Exact n (recognize p) (fun s t => t = s ∧ ∃ a, G s a) := fun i hl => by
  have := hp i hl
  simp only [recognize]
  revert this
  cases p i with
  | ok r a =>
    rintro ⟨s, h1, h2⟩
    exact ⟨s, h1, by rw [Exact] at h1; rw [h1, take_consumed], a, h2⟩
  | _ => exact id

/-- The text is forgotten. -/
theorem sound_recognize' {p : P α} {G : List Char → α → Prop} (hp : ParsesTo R n p G) :
    ParsesTo R n (recognize p) (fun s _ => ∃ a, G s a) := fun i hl => by
  have := hp i hl
  simp only [recognize]
  revert this
  cases p i with
  | ok r a => rintro ⟨s, h1, h2⟩; exact ⟨s, h1, a, h2⟩
  | _ => exact id

theorem sound_recognizer {p : P α} {G : List Char → α → Prop} (hp : ParsesTo Exact n p G) :
    ParsesTo Exact n (recognizer p) (fun s t => t.1 = s ∧ G s t.2) := fun i hl => by
  have := hp i hl
  simp only [recognizer]
  revert this
  cases p i with
  | ok r a =>
    rintro ⟨s, h1, h2⟩
    exact ⟨s, h1, by rw [Exact] at h1; rw [h1, take_consumed], h2⟩
  | _ => exact id

theorem sound_mapResFail {p : P α} {G : List Char → α → Prop} {H : List Char → β → Prop}
    {f : α → Except ParseError β} (h : ParsesTo R n p G) (hi : ∀ s a b, G s a → f a = .ok b → H s b) :
    ParsesTo R n (mapResFail p f) H := fun i hl => by
  have := h i hl
  simp only [mapResFail]
  revert this
  cases p i with
  | ok r a =>
    rintro ⟨s, h1, h2⟩
    simp only [PR.bind]
    cases hf : f a with
    | ok b => exact ⟨s, h1, hi s a b h2 hf⟩
    | error e => trivial
  | _ => exact id

theorem sound_mapRes {p : P α} {G : List Char → α → Prop} {H : List Char → β → Prop}
    {f : α → Except ParseError β} (h : ParsesTo R n p G) (hi : ∀ s a b, G s a → f a = .ok b → H s b) :
    ParsesTo R n (mapRes p f) H := fun i hl => by
  have := h i hl
  simp only [mapRes]
  revert this
  cases p i with
  | ok r a =>
    rintro ⟨s, h1, h2⟩
    simp only [PR.bind]
    cases hf : f a with
    | ok b => exact ⟨s, h1, hi s a b h2 hf⟩
    | error e => trivial
  | _ => exact id

theorem stripPrefix_eq_some {t i r : List Char} : stripPrefix t i = some r ↔ i = t ++ r := by
  induction t generalizing i with
  | nil => simp [stripPrefix]
  | cons c t ih =>
    cases i with
    | nil => simp [stripPrefix]
    | cons d i =>
      simp only [stripPrefix]
      split
      · rename_i h; subst h; simp [ih]
      · rename_i h; simp; intro h'; exact absurd h'.symm h

theorem sound_tag (hR : ReadRel R) (t : String) :
    ParsesTo R n (tag t) (fun s a => s = t.toList ∧ a = t.toList) := fun i _ => by
  simp only [tag]
  split
  · rename_i r h
    rw [stripPrefix_eq_some] at h
    exact ⟨t.toList, by rw [h]; exact hR.exact _ _, rfl, rfl⟩
  · trivial

theorem sound_satisfy (hR : ReadRel R) (f : Char → Bool) :
    ParsesTo R n (satisfy f) (fun s c => s = [c] ∧ f c = true) := fun i _ => by
  cases i with
  | nil => trivial
  | cons c i =>
    simp only [satisfy]
    split
    · rename_i h; exact ⟨[c], hR.exact [c] i, rfl, h⟩
    · trivial

theorem sound_chr (hR : ReadRel R) (c : Char) : ParsesTo R n (chr c) (fun s _ => s = [c]) :=
  (sound_satisfy hR _).imp fun s a h => by simp at h; rw [h.1, h.2]

theorem mem_takeWhile {f : Char → Bool} {l : List Char} {c : Char} (h : c ∈ l.takeWhile f) : f c = true := by
  induction l with
  | nil => simp at h
  | cons d l ih =>
    rw [List.takeWhile_cons] at h
    split at h
    · rename_i hd
      rcases List.mem_cons.1 h with h | h
      · rw [h]; exact hd
      · exact ih h
    · simp at h

theorem sound_takeWhile0 (hR : ReadRel R) (f : Char → Bool) :
    ParsesTo R n (takeWhile0 f) (fun s a => a = s ∧ ∀ c ∈ s, f c = true) := fun i _ => by
  refine ⟨i.takeWhile f, ?_, rfl, ?_⟩
  · have := hR.exact (i.takeWhile f) (i.dropWhile f)
    rwa [List.takeWhile_append_dropWhile] at this
  · exact fun c hc => mem_takeWhile hc

theorem sound_takeWhile1 (hR : ReadRel R) (f : Char → Bool) :
    ParsesTo R n (takeWhile1 f) (fun s a => a = s ∧ s ≠ [] ∧ ∀ c ∈ s, f c = true) := fun i hl => by
  have h0 := sound_takeWhile0 (n := n) hR f i hl
  simp only [takeWhile1]
  split
  · trivial
  · rename_i s' hne
    simp only [takeWhile0] at h0
    obtain ⟨s, h1, h2, h3⟩ := h0
    exact ⟨s, h1, h2, by rw [← h2]; exact hne, h3⟩

end

end Cddl
