import Verif.Proofs.Tries
import Verif.Props.C65

/-!
# C67: what an entry that fails has used up

`TriesArray` and `TriesMap` (Spec/Tries.lean) describe arrays and maps for all schemas, also those that are not in the scope of
C65.  Data that an entry has taken before it failed is used up, unless the entry is a group: a group gives back what its own
entries took, but not what was taken by a group inside it.
-/

namespace Cddl

section
variable {env : Env}

/-- C67.  Trying the entries of an array type on an array has one outcome, which is also that of the validator: the array is
accepted if all is taken, refused if something is left or does not fit, and any other error of the validator is the one met. -/
theorem C67_array (hl : ∀ s e, env.lookup s = .error e → e.isFatal = true) {c : Ctx} (hc : CtxOK c) (ms : List Node)
    {xs : List Value} (hv : (Value.array xs).WF) :
    ∃ o rest, (∃ l, TriesArray env c ms xs o rest l) ∧
      (∀ o' rest' l', TriesArray env c ms xs o' rest' l' → o' = o ∧ rest' = rest) ∧
      (o.leaving rest).Says (validate env (.array xs) (.array ms) c) := by
  have det : ∀ {o y l o' y' l'}, TriesArray env c ms xs o y l → TriesArray env c ms xs o' y' l' → o' = o ∧ y' = y :=
    fun h h' => ⟨(triesArray_det h' h).1, (triesArray_det h' h).2.1⟩
  have hw : (WArr.new xs).Inv 0 := ⟨(Value.WFArr_iff xs).mp hv, by simp [WArr.new], rfl⟩
  have G := lim_good (env := env) (plainErr_ok hl)
  have h1 := seqLoopS_tries (V := arrCopy) (I := WArr.Inv 0) (E := PlainErr) (c := c) (l := ms)
    (f := fun m w => (lim env).arr m w c) (fun n _ w hw => G.arr n w c _ hw)
    (fun n _ w hw => lim_tries_arr hl n w c 0 hw) (WArr.new xs) hw
  have h2 := seqLoopS_safe (E := PlainErr) (I := WArr.Inv 0) (f := fun m w => (lim env).arr m w c) ms (WArr.new xs) hw
    (fun n _ w hw => G.arr n w c _ hw)
  have h3 : validate env (.array xs) (.array ms) c ≠ .fuel := lim_val_returns env _ _ hc
  unfold validate at h3 ⊢
  rw [val_eq] at h3 ⊢
  simp only [valBody, validateArray] at h3 ⊢
  revert h1 h2 h3
  cases seqLoopS (fun m w => (lim env).arr m w c) ms (WArr.new xs) with
  | ok w' =>
    rintro ⟨l, -, -, h1⟩ h2 h3
    refine ⟨_, _, ⟨_, h1⟩, fun o' y' l' h => det h1 h, ?_⟩
    show (Out.took w'.array).Says _
    dsimp only
    cases w'.array with
    | nil => rfl
    | cons => exact ⟨_, rfl⟩
  | err e w' =>
    rintro ⟨l, -, -, h1⟩ h2 h3
    refine ⟨_, _, ⟨_, h1⟩, fun o' y' l' h => det h1 h, ?_⟩
    have := h2.1
    cases e <;> first | exact ⟨_, rfl⟩ | rfl | cases this rfl
  | panic => exact fun _ h2 => h2.elim
  | fuel => exact fun _ _ h3 => absurd rfl h3

/-- C67.  The same for maps. -/
theorem C67_map (hl : ∀ s e, env.lookup s = .error e → e.isFatal = true) {c : Ctx} (hc : CtxOK c) (ms : List Node)
    {m : List (Value × Value)} (hv : (Value.map m).WF) :
    ∃ o rest, (∃ l, TriesMap env c ms m o rest l) ∧
      (∀ o' rest' l', TriesMap env c ms m o' rest' l' → o' = o ∧ rest' = rest) ∧
      (o.leaving rest).Says (validate env (.map m) (.map ms) c) := by
  have det : ∀ {o y l o' y' l'}, TriesMap env c ms m o y l → TriesMap env c ms m o' y' l' → o' = o ∧ y' = y :=
    fun h h' => ⟨(triesMap_det h' h).1, (triesMap_det h' h).2.1⟩
  have hv' : VMap.Sorted m ∧ Value.WFMap m := hv
  have hw : (WMap.new m).Inv 0 := ⟨(VMap.sorted_iff m).mp hv'.1, (Value.WFMap_iff m).mp hv'.2, by simp [WMap.new], rfl⟩
  have G := lim_good (env := env) (plainErr_ok hl)
  have h1 := seqLoopS_tries (V := mapCopy) (I := WMap.Inv 0) (E := fun _ => True) (c := c) (l := ms)
    (f := fun m w => (lim env).map m w c) (fun n _ w hw => G.map n w c _ hw)
    (fun n _ w hw => lim_tries_map hl n w c 0 hw) (WMap.new m) hw
  have h2 := seqLoopS_safe (E := fun _ => True) (I := WMap.Inv 0) (f := fun m w => (lim env).map m w c) ms (WMap.new m) hw
    (fun n _ w hw => G.map n w c _ hw)
  have h3 : validate env (.map m) (.map ms) c ≠ .fuel := lim_val_returns env _ _ hc
  unfold validate at h3 ⊢
  rw [val_eq] at h3 ⊢
  simp only [valBody, validateMap] at h3 ⊢
  revert h1 h2 h3
  cases seqLoopS (fun m w => (lim env).map m w c) ms (WMap.new m) with
  | ok w' =>
    rintro ⟨l, -, -, h1⟩ h2 h3
    refine ⟨_, _, ⟨_, h1⟩, fun o' y' l' h => det h1 h, ?_⟩
    show (Out.took w'.map).Says _
    dsimp only
    cases w'.map with
    | nil => rfl
    | cons => exact ⟨_, rfl⟩
  | err e w' =>
    rintro ⟨l, -, -, h1⟩ h2 h3
    refine ⟨_, _, ⟨_, h1⟩, fun o' y' l' h => det h1 h, ?_⟩
    cases e <;> first | exact ⟨_, rfl⟩ | rfl
  | panic => exact fun _ h2 => h2.elim
  | fuel => exact fun _ _ h3 => absurd rfl h3

theorem Out.leaving_ok {α : Type} {o : Out Unit} {y : List α} (h : (o.leaving y).Says (.ok ())) : o = .took () ∧ y = [] := by
  cases o with
  | took =>
    cases y with
    | nil => exact ⟨rfl, rfl⟩
    | cons => obtain ⟨_, h⟩ := h; cases h
  | stop => cases h
  | _ => obtain ⟨_, h⟩ := h; cases h

/-- C67.  An array is accepted exactly if its entries take all of it. -/
theorem C67_array_accepts (hl : ∀ s e, env.lookup s = .error e → e.isFatal = true) {c : Ctx} (hc : CtxOK c) (ms : List Node)
    {xs : List Value} (hv : (Value.array xs).WF) :
    Accepts env c (.array ms) (.array xs) ↔ ∃ l, TriesArray env c ms xs (.took ()) [] l := by
  obtain ⟨o, rest, h1, h2, h3⟩ := C67_array hl hc ms hv
  refine ⟨fun h => ?_, fun ⟨l, h⟩ => ?_⟩
  · unfold Accepts at h
    rw [h] at h3
    obtain ⟨rfl, rfl⟩ := Out.leaving_ok h3
    exact h1
  · obtain ⟨rfl, rfl⟩ := h2 _ _ _ h
    exact h3

/-- C67.  A map is accepted exactly if its entries take all of it. -/
theorem C67_map_accepts (hl : ∀ s e, env.lookup s = .error e → e.isFatal = true) {c : Ctx} (hc : CtxOK c) (ms : List Node)
    {m : List (Value × Value)} (hv : (Value.map m).WF) :
    Accepts env c (.map ms) (.map m) ↔ ∃ l, TriesMap env c ms m (.took ()) [] l := by
  obtain ⟨o, rest, h1, h2, h3⟩ := C67_map hl hc ms hv
  refine ⟨fun h => ?_, fun ⟨l, h⟩ => ?_⟩
  · unfold Accepts at h
    rw [h] at h3
    obtain ⟨rfl, rfl⟩ := Out.leaving_ok h3
    exact h1
  · obtain ⟨rfl, rfl⟩ := h2 _ _ _ h
    exact h3

end

/-! ## Examples -/

theorem top_ok : CtxOK top := rfl

theorem c67_int1 (xs : List Value) : TriesArrayEntry (demoEnv []) top (.prelude .int) (.integer 1 :: xs) (.took ()) xs [.integer 1] :=
  .single rfl (.take _ (validate_of_fuel 60 (by decide)))

theorem c67_int2 (xs : List Value) : TriesArrayEntry (demoEnv []) top (.prelude .int) (.integer 2 :: xs) (.took ()) xs [.integer 2] :=
  .single rfl (.take _ (validate_of_fuel 60 (by decide)))

theorem c67_text2 (xs : List Value) :
    TriesArrayEntry (demoEnv []) top (.prelude .tstr) (.integer 2 :: xs) .no (.integer 2 :: xs) [] :=
  .single rfl (.refuse (e := .mismatch "tstr") _ (validate_of_fuel 60 (by decide)))

/-- `[(int,), tstr // int]` accepts `[1, 2]` (see `C65_refuted`): the group around `int` has taken 1 before the first option fails
for 2, so that the second option takes 2. -/
theorem C67_lost : TriesArray (demoEnv []) top
      [.choice [.group [.group [.prelude .int], .prelude .tstr], .group [.prelude .int]]]
      [.integer 1, .integer 2] (.took ()) [] [] ∧
    Accepts (demoEnv []) top (.array [.choice [.group [.group [.prelude .int], .prelude .tstr], .group [.prelude .int]]])
      (.array [.integer 1, .integer 2]) := by
  have inner : TriesArrayEntry (demoEnv []) top (.group [.prelude .int]) [.integer 1, .integer 2] (.took ()) [.integer 2] [] :=
    .group (.cons (c67_int1 _) (.nil _ _))
  have first : TriesArrayEntry (demoEnv []) top (.group [.group [.prelude .int], .prelude .tstr]) [.integer 1, .integer 2] .no
      [.integer 2] [] := .groupFails (.cons inner (.fails _ (c67_text2 _) rfl)) rfl rfl
  have second : TriesArrayEntry (demoEnv []) top (.group [.prelude .int]) [.integer 2] (.took ()) [] [] :=
    .group (.cons (c67_int2 _) (.nil _ _))
  have h : TriesArray (demoEnv []) top
      [.choice [.group [.group [.prelude .int], .prelude .tstr], .group [.prelude .int]]]
      [.integer 1, .integer 2] (.took ()) [] [] := .cons (.choice (.next first (.first _ second))) (.nil _ _)
  exact ⟨h, (C67_array_accepts (demo_fatal []) top_ok _ ((Value.WFArr_iff _).mpr (by simp [Value.WF]))).mpr ⟨_, h⟩⟩

/-- `[(int, tstr // int, int)]` accepts `[1, 2]`: here the first option has noted 1, and gives it back. -/
example : TriesArray (demoEnv []) top
      [.choice [.group [.prelude .int, .prelude .tstr], .group [.prelude .int, .prelude .int]]]
      [.integer 1, .integer 2] (.took ()) [] [] := by
  have first : TriesArrayEntry (demoEnv []) top (.group [.prelude .int, .prelude .tstr]) [.integer 1, .integer 2] .no
      [.integer 1, .integer 2] [] := .groupFails (.cons (c67_int1 _) (.fails _ (c67_text2 _) rfl)) rfl rfl
  have second : TriesArrayEntry (demoEnv []) top (.group [.prelude .int, .prelude .int]) [.integer 1, .integer 2] (.took ())
      [] [] := .group (.cons (c67_int1 _) (.cons (c67_int2 _) (.nil _ _)))
  exact .cons (.choice (.next first (.first _ second))) (.nil _ _)

/-- `{? ("a": int, "b": int), * tstr => int}` accepts `{"a": 1}`: the group gives the pair back. -/
example : ∃ l, TriesMap (demoEnv []) top
    [.occur .optional (.group [.keyValue (.literal (.text "a")) (.prelude .int) true, .keyValue (.literal (.text "b")) (.prelude .int) true]),
      .occur .zeroOrMore (.keyValue (.prelude .tstr) (.prelude .int) false)] [(.text "a", .integer 1)] (.took ()) [] l :=
  (C67_map_accepts (demo_fatal []) top_ok _ (by simp [Value.WF, Value.WFMap, VMap.Sorted])).mp (accepts_of_fuel 60 (by decide))

/-- `{&g}` with `g = (x: ("a" => int // "b" => int))`: of a keyed member the value is tried. -/
example : ∃ l, TriesMap (demoEnv [("g", ⟨[], .group [.keyValue (.literal (.text "x"))
      (.choice [.keyValue (.literal (.text "a")) (.prelude .int) false, .keyValue (.literal (.text "b")) (.prelude .int) false]) true]⟩)])
    top [.choiceify "g" []] [(.text "b", .integer 1)] (.took ()) [] l :=
  (C67_map_accepts (demo_fatal _) top_ok _ (by simp [Value.WF, Value.WFMap, VMap.Sorted])).mp (accepts_of_fuel 60 (by decide))

end Cddl
