import Verif.Props.C33
import Verif.Proofs.Same
import Verif.Props.C44

/-! # C33  Group-to-choice operator, among the entries of a map -/

namespace Cddl

/-- Trying entries of a map one after the other on a working copy: `w'` is what is left when all of them report an
ordinary mismatch. -/
inductive AllMismatch (env : Env) : List (Ctx × Node) → WMap → WMap → Prop
  | nil (w) : AllMismatch env [] w w
  | cons {c n l w w' w'' m} : (lim env).map n w c = .err (.mismatch m) w' → AllMismatch env l w' w'' →
      AllMismatch env ((c, n) :: l) w w''

/-- Trying entries of a map one after the other: the first answer other than an ordinary mismatch. -/
inductive FirstOther (env : Env) : List (Ctx × Node) → WMap → SRes WMap → Prop
  | here {c n l w r} : (lim env).map n w c = r → (∀ m w', r ≠ .err (.mismatch m) w') → FirstOther env ((c, n) :: l) w r
  | later {c n l w w' r m} : (lim env).map n w c = .err (.mismatch m) w' → FirstOther env l w' r →
      FirstOther env ((c, n) :: l) w r

theorem AllMismatch.append {env : Env} {a b : List (Ctx × Node)} {w w' w'' : WMap} (h : AllMismatch env a w w')
    (h' : AllMismatch env b w' w'') : AllMismatch env (a ++ b) w w'' := by
  induction h with
  | nil => exact h'
  | cons h1 _ ih => exact .cons h1 (ih h')

theorem FirstOther.append {env : Env} {a b : List (Ctx × Node)} {w w' : WMap} {r : SRes WMap} (h : AllMismatch env a w w')
    (h' : FirstOther env b w' r) : FirstOther env (a ++ b) w r := by
  induction h with
  | nil => exact h'
  | cons h1 _ ih => exact .later h1 (ih h')

theorem FirstOther.more {env : Env} {a b : List (Ctx × Node)} {w : WMap} {r : SRes WMap} (h : FirstOther env a w r) :
    FirstOther env (a ++ b) w r := by
  induction h with
  | here h1 h2 => exact .here h1 h2
  | later h1 _ ih => exact .later h1 ih

/-- A result is what trying the entries in turn gives. -/
def TriedAs (env : Env) (l : List (Ctx × Node)) (w : WMap) (r : SRes WMap) : Prop :=
  (∃ m w', r = .err (.mismatch m) w' ∧ AllMismatch env l w w') ∨
    ((∀ m w', r ≠ .err (.mismatch m) w') ∧ FirstOther env l w r)

theorem triedAs_one {env : Env} {c : Ctx} {n : Node} {w : WMap} : TriedAs env [(c, n)] w ((lim env).map n w c) := by
  by_cases h : ∃ m w', (lim env).map n w c = .err (.mismatch m) w'
  · obtain ⟨m, w', h⟩ := h
    exact .inl ⟨m, w', h, .cons h (.nil _)⟩
  · have h' : ∀ m w', (lim env).map n w c ≠ .err (.mismatch m) w' := fun m w' h1 => h ⟨m, w', h1⟩
    exact .inr ⟨h', .here rfl h'⟩

mutual
theorem mlists_item {env : Env} : ∀ {c : Ctx} {m : Node} {ts : List (Ctx × Node)} (_ : Lists env c m ts) (w : WMap),
    TriedAs env ts w (mapChoiceifyItem (lim env) c m w)
  | _, _, _, .keyed c k t cut, w => triedAs_one
  | c, _, ts, .group (s := s) (as := as) (ms := ms) (c' := c') h hl, w => by
    have ih := mlists_all hl ("choiceified group of " ++ toString ms.length) w
    simp only [mapChoiceifyItem]
    rw [mchf_eq]
    simp only [mchfBody, h, validateMapChoiceifyMembers]
    exact ih
  | c, _, ts, .alias (s := s) (as := as) (s' := s') (as' := as') h hl, w => by
    have ih := mlists_item hl w
    simp only [mapChoiceifyItem] at ih ⊢
    rw [mchf_eq]
    simp only [mchfBody, h]
    exact ih
  | c, t, _, .plain _ h1 h2, w => by
    cases t with
    | rule s as => exact absurd rfl (h1 s as)
    | keyValue k n cut => exact absurd rfl (h2 k n cut)
    | _ => exact triedAs_one
theorem mlists_all {env : Env} : ∀ {c : Ctx} {ms : List Node} {ts : List (Ctx × Node)} (_ : ListsAll env c ms ts)
    (msg : String) (w : WMap),
    TriedAs env ts w (choiceLoopS (mapChoiceifyItem (lim env) c) (fun e => !e.isMismatch) msg ms w)
  | _, _, _, .nil _, msg, w => .inl ⟨_, _, rfl, .nil _⟩
  | c, _, _, .cons (m := m) (ms := ms) (ts := ts) (us := us) h hs, msg, w => by
    have h1 := mlists_item h w
    unfold choiceLoopS
    rcases h1 with ⟨m', w', h1, h2⟩ | ⟨h1, h2⟩
    · rw [h1]
      have h3 := mlists_all hs msg w'
      simp only [Err.isMismatch]
      rcases h3 with ⟨m'', w'', h3, h4⟩ | ⟨h3, h4⟩
      · exact .inl ⟨m'', w'', h3, h2.append h4⟩
      · exact .inr ⟨h3, FirstOther.append h2 h4⟩
    · refine .inr ?_
      cases hr : mapChoiceifyItem (lim env) c m w with
      | ok w' => rw [hr] at h2; exact ⟨fun _ _ h => (by cases h), h2.more⟩
      | panic => rw [hr] at h2; exact ⟨fun _ _ h => (by cases h), h2.more⟩
      | fuel => rw [hr] at h2; exact ⟨fun _ _ h => (by cases h), h2.more⟩
      | err e w' =>
        rw [hr] at h1 h2
        have he : e.isMismatch = false := by
          cases e with
          | mismatch m => exact absurd rfl (h1 m w')
          | _ => rfl
        simp only [he]
        exact ⟨h1, h2.more⟩
end

/-- C33.  `&g` as an entry of a map, where the members of `g` list `ts`: keys are thrown away, and what the members stand for
is tried in turn.  The answer is the first that is not an ordinary mismatch; there is a mismatch only if all of them
mismatch. -/
theorem C33_map_entry (env : Env) (c : Ctx) (s : String) (as : List Node) (ts : List (Ctx × Node))
    (h : Lists env c (.rule s as) ts) (w : WMap) : TriedAs env ts w ((lim env).map (.choiceify s as) w c) := by
  have := mlists_item h w
  rw [map_eq]
  exact this

/-- C33.  In particular it succeeds exactly if one of what the members stand for does, after mismatches of all before. -/
theorem C33_map_accepts (env : Env) (c : Ctx) (s : String) (as : List Node) (ts : List (Ctx × Node))
    (h : Lists env c (.rule s as) ts) (w w' : WMap) :
    (lim env).map (.choiceify s as) w c = .ok w' ↔ ∃ pre t post w0, ts = pre ++ t :: post ∧ AllMismatch env pre w w0 ∧
      (lim env).map t.2 w0 t.1 = .ok w' := by
  have key := C33_map_entry env c s as ts h w
  constructor
  · intro hr
    rw [hr] at key
    rcases key with ⟨m, w1, h1, _⟩ | ⟨_, h1⟩
    · cases h1
    · clear h hr
      generalize hr : SRes.ok w' = r at h1
      induction h1 with
      | here h1 _ => subst hr; exact ⟨[], _, _, _, rfl, .nil _, h1⟩
      | later h1 _ ih =>
        obtain ⟨pre, t, post, w0, h2, h3, h4⟩ := ih hr
        exact ⟨_ :: pre, t, post, w0, by rw [h2]; rfl, .cons h1 h3, h4⟩
  · rintro ⟨pre, t, post, w0, rfl, h1, h2⟩
    generalize (lim env).map (.choiceify s as) w c = r at key
    clear h
    induction h1 with
    | nil w =>
      rcases key with ⟨m, w1, h1, h3⟩ | ⟨h1, h3⟩
      · cases h3 with
        | cons h3 _ => rw [h2] at h3; cases h3
      · cases h3 with
        | here h3 _ => exact h3.symm.trans h2
        | later h3 _ => rw [h2] at h3; cases h3
    | cons h4 _ ih =>
      refine ih h2 ?_
      rcases key with ⟨m, w1, h1, h3⟩ | ⟨h1, h3⟩
      · cases h3 with
        | cons h3 h5 => rw [h4] at h3; cases h3; exact .inl ⟨_, _, h1, h5⟩
      · cases h3 with
        | here h3 h5 => rw [h4] at h3; exact absurd h3.symm (h5 _ _)
        | later h3 h5 => rw [h4] at h3; cases h3; exact .inr ⟨h1, h5⟩

/-! ## A concrete case -/

/-- `x = {&g} g = (p: ga, q: gb) ga = (a: int) gb = (b: tstr)`. -/
def c33Table : RuleTable :=
  [("x", ⟨[], .map [.choiceify "g" []]⟩),
   ("g", ⟨[], .group [.keyValue (.literal (.text "p")) (.rule "ga" []) true,
      .keyValue (.literal (.text "q")) (.rule "gb" []) true]⟩),
   ("ga", ⟨[], .group [.keyValue (.literal (.text "a")) (.prelude .int) true]⟩),
   ("gb", ⟨[], .group [.keyValue (.literal (.text "b")) (.prelude .tstr) true]⟩)]

example : Lists (demoEnv c33Table) top (.rule "g" []) [(.frame [] top 1, .rule "ga" []), (.frame [] top 1, .rule "gb" [])] :=
  .group (ms := [.keyValue (.literal (.text "p")) (.rule "ga" []) true, .keyValue (.literal (.text "q")) (.rule "gb" []) true])
    rfl (.cons (ts := [_]) (us := [_]) (.keyed _ _ _ _) (.cons (ts := [_]) (us := []) (.keyed _ _ _ _) (.nil _)))

/-- The first mismatches and the second takes the pair. -/
example : Accepts (demoEnv c33Table) top (.map [.choiceify "g" []]) (.map [(.text "b", .text "t")]) :=
  accepts_of_fuel 60 (by decide)

/-! ## Naming an inline group changes the answer -/

/-- `demoLibs` with a JSON text `{"a": 1}`. -/
def c33Libs : Libs :=
  { demoLibs with
    jsonDecode := fun s => if s = "{\"a\": 1}" then .ok (.object [("a", .number (.posInt 1))]) else .error "bad json" }

/-- Among the entries of a map, `&( ... )` does not throw away the keys: `{&(p: ga, q: gb)}` refuses what `{&g}` with
`g = (p: ga, q: gb)` accepts (/repo/src/validate.rs:755 uses `validate_map_choice`). -/
theorem C33_map_inline_refuted : ¬ ∀ (l : Libs) (rest json : String),
    (validateJsonStr l "x" ("x = {&g} g = (p: ga, q: gb)" ++ rest) json = .ok () ↔
      validateJsonStr l "x" ("x = {&(p: ga, q: gb)}" ++ rest) json = .ok ()) := by
  intro h
  have h1 : validateJsonStr c33Libs "x" ("x = {&g} g = (p: ga, q: gb)" ++ " ga = (a: int) gb = (b: tstr)") "{\"a\": 1}" =
    .ok () := validateJsonStr_of_fuel (k := 80) (by decide +kernel) (by simp)
  have h2 : validateJsonStr c33Libs "x" ("x = {&(p: ga, q: gb)}" ++ " ga = (a: int) gb = (b: tstr)") "{\"a\": 1}" =
    .err (.mismatch "choice of 2") := validateJsonStr_of_fuel (k := 80) (by decide +kernel) (by simp)
  have := (h c33Libs " ga = (a: int) gb = (b: tstr)" "{\"a\": 1}").mp h1
  rw [h2] at this
  cases this

end Cddl
