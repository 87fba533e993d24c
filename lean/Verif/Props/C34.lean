import Verif.Proofs.Inline
import Verif.Props.C01

/-! # C34  Unwrap and group inlining -/

namespace Cddl

/-- In scope `c` the entry of an array refers to a definition `def ms`: a group name, or `~x` where `x` is
an array type. -/
inductive RefersArr (env : Env) (c : Ctx) : Node → List String → List Node → List Node → Prop
  | named {s ps as ms} : c.param s = none → env.lookup s = .ok ⟨ps, .group ms⟩ → RefersArr env c (.rule s as) ps as ms
  | unwrap {s ps as ms} : c.param s = none → env.lookup s = .ok ⟨ps, .array ms⟩ →
      RefersArr env c (.unwrap s as) ps as ms

/-- The same for an entry of a map. -/
inductive RefersMap (env : Env) (c : Ctx) : Node → List String → List Node → List Node → Prop
  | named {s ps as ms} : c.param s = none → env.lookup s = .ok ⟨ps, .group ms⟩ → RefersMap env c (.rule s as) ps as ms
  | unwrap {s ps as ms} : c.param s = none → env.lookup s = .ok ⟨ps, .map ms⟩ → RefersMap env c (.unwrap s as) ps as ms

/-- The members mean the same inside the definition and at the place where it is used: they use no names, or
neither place has type parameters (and no map key uses a rule name). -/
def Portable (env : Env) (c : Ctx) (ps : List String) (ms : List Node) : Prop :=
  Node.namesL ms = [] ∨ (ps = [] ∧ (∀ s, c.param s = none) ∧ Node.KeysPlainL ms ∧
    ∀ s d, env.lookup s = .ok d → d.node.KeysPlain)

theorem derive_cases (c : Ctx) (ps : List String) (n : Node) (as : List Node) (h : ps.length = as.length) :
    (c.derive ⟨ps, n⟩ as = .error (.structural "hit recursion limit") ∧ maxDepth ≤ c.depth) ∨
      c.derive ⟨ps, n⟩ as = .ok (.frame (ps.zip as) c (c.depth + 1)) := by
  simp only [Ctx.derive, Ctx.incDepth]
  rw [if_neg (by simpa using h)]
  split
  · exact .inl ⟨rfl, ‹_›⟩
  · exact .inr rfl

theorem refersArr_eq {env : Env} {c : Ctx} {x : Node} {ps : List String} {as ms : List Node}
    (h : RefersArr env c x ps as ms) (hl : ps.length = as.length) :
    (∀ w, (lim env).arr x w c = .err (.structural "hit recursion limit") w) ∨
      ∀ w, SOut (WArr.Eqv 0) ((lim env).arr x w c)
        (seqLoopS (fun m w => (lim env).arr m w (.frame (ps.zip as) c (c.depth + 1))) ms w) := by
  cases h with
  | named hp hs =>
    rcases derive_cases c ps (.group ms) as hl with ⟨hd, _⟩ | hd
    · left; intro w; rw [arr_eq]; simp only [arrBody, lookupRule_global hp, hs, Except.bind, hd]
    · right; intro w; rw [arr_eq]
      simp only [arrBody, lookupRule_global hp, hs, Except.bind, hd]
      rw [arr_eq]
      exact arrGroup_out env ms _ w
  | unwrap hp hs =>
    rcases derive_cases c ps (.array ms) as hl with ⟨hd, _⟩ | hd
    · left; intro w; rw [arr_eq]; simp only [arrBody, lookupRule_global hp, hs, Except.bind, hd]
    · right; intro w; rw [arr_eq]
      simp only [arrBody, lookupRule_global hp, hs, Except.bind, hd, validateArrayUnwrap]
      exact (SEqv.refl' WArr.Eqv.refl0 _).out

theorem refersMap_eq {env : Env} {c : Ctx} {x : Node} {ps : List String} {as ms : List Node}
    (h : RefersMap env c x ps as ms) (hl : ps.length = as.length) :
    (∀ w, (lim env).map x w c = .err (.structural "hit recursion limit") w) ∨
      ∀ w, SCut (WMap.Eqv 0) ((lim env).map x w c)
        (seqLoopS (fun m w => (lim env).map m w (.frame (ps.zip as) c (c.depth + 1))) ms w) := by
  cases h with
  | named hp hs =>
    rcases derive_cases c ps (.group ms) as hl with ⟨hd, _⟩ | hd
    · left; intro w; rw [map_eq]; simp only [mapBody, lookupRule_global hp, hs, Except.bind, hd]
    · right; intro w; rw [map_eq]
      simp only [mapBody, lookupRule_global hp, hs, Except.bind, hd]
      rw [map_eq]
      exact mapGroup_cut env ms _ w
  | unwrap hp hs =>
    rcases derive_cases c ps (.map ms) as hl with ⟨hd, _⟩ | hd
    · left; intro w; rw [map_eq]; simp only [mapBody, lookupRule_global hp, hs, Except.bind, hd]
    · right; intro w; rw [map_eq]
      simp only [mapBody, lookupRule_global hp, hs, Except.bind, hd, validateMapUnwrap]
      exact (SEqv.refl' WMap.Eqv.refl0 _).out.cut

theorem repairs_refl (env : Env) : Repairs env env := ⟨fun _ => .inl rfl, rfl, rfl, rfl⟩

/-- Members inside the definition and in place. -/
theorem portable_arr {env : Env} {c : Ctx} {ps : List String} {as ms : List Node} (h : Portable env c ps ms) (w : WArr) :
    SFat (seqLoopS (fun m w => (lim env).arr m w (.frame (ps.zip as) c (c.depth + 1))) ms w)
      (seqLoopS (fun m w => (lim env).arr m w c) ms w) := by
  refine seqLoopS_fat w fun n hn w => ?_
  obtain ⟨k, hk'⟩ := (lim_ev env).arr n w (.frame (ps.zip as) c (c.depth + 1))
  have h2 := hk' k (Nat.le_refl _)
  dsimp only at h2
  rw [← h2]
  rcases h with h | ⟨rfl, hc, hm, hk⟩
  · have := (fns_sim (noNamesSim (env := env) (env' := env) rfl rfl rfl) k).arr
      (.frame (ps.zip as) c (c.depth + 1)) n c n ⟨rfl, namesL_nil h n hn, trivial⟩ w
    by_cases hf : (fns env k).arr n w (.frame (ps.zip as) c (c.depth + 1)) = .fuel
    · exact .inl (.inl hf)
    · have := this hf
      simp only [SRes.er_true] at this
      exact .inr (.inr this)
  · exact (fns_fat (repairs_refl env) hk k).arr n w _ c (.plain (fun s => by simp [Ctx.param, gmapFind]) hc
      (by simp [Ctx.depth])) (keysPlainL_mem hm n hn)

theorem portable_map {env : Env} {c : Ctx} {ps : List String} {as ms : List Node} (h : Portable env c ps ms) (w : WMap) :
    SFat (seqLoopS (fun m w => (lim env).map m w (.frame (ps.zip as) c (c.depth + 1))) ms w)
      (seqLoopS (fun m w => (lim env).map m w c) ms w) := by
  refine seqLoopS_fat w fun n hn w => ?_
  obtain ⟨k, hk'⟩ := (lim_ev env).map n w (.frame (ps.zip as) c (c.depth + 1))
  have h2 := hk' k (Nat.le_refl _)
  dsimp only at h2
  rw [← h2]
  rcases h with h | ⟨rfl, hc, hm, hk⟩
  · have := (fns_sim (noNamesSim (env := env) (env' := env) rfl rfl rfl) k).map
      (.frame (ps.zip as) c (c.depth + 1)) n c n ⟨rfl, namesL_nil h n hn, trivial⟩ w
    by_cases hf : (fns env k).map n w (.frame (ps.zip as) c (c.depth + 1)) = .fuel
    · exact .inl (.inl hf)
    · have := this hf
      simp only [SRes.er_true] at this
      exact .inr (.inr this)
  · exact (fns_fat (repairs_refl env) hk k).map n w _ c (.plain (fun s => by simp [Ctx.param, gmapFind]) hc
      (by simp [Ctx.depth])) (keysPlainL_mem hm n hn)

theorem settle {env : Env} {c : Ctx} {n n' : Node} {v : Value} (hc : CtxOK c) (hv : v.WF)
    (h : RFat (validate env v n c) (validate env v n' c)) :
    (∃ e, validate env v n c = .err e ∧ e.isFatal = true) ∨ validate env v n c = validate env v n' c := by
  rcases h with (h | h) | h | h
  · exact absurd h (lim_val_returns env v n hc)
  · have := (lim_good (OkErr.triv env)).val v n c hv
    unfold validate at h
    rw [h] at this
    exact this.elim
  · exact .inl h
  · exact .inr h.symm

theorem array_group_swap {env : Env} {c : Ctx} {x y : Node} (hc : CtxOK c) {v : Value} (hv : v.WF)
    (h : ∀ a, v = .array a → RFat (validate env v x c) (validate env v y c))
    (hx : ∃ l, x = .array l) (hy : ∃ l, y = .array l) :
    (∃ e, validate env v x c = .err e ∧ e.isFatal = true) ∨ validate env v x c = validate env v y c := by
  obtain ⟨l, rfl⟩ := hx
  obtain ⟨l', rfl⟩ := hy
  cases v with
  | array a => exact settle hc hv (h a rfl)
  | _ => right; unfold validate; rw [val_eq, val_eq]; rfl

/-- An inline group `( ms )` in an array is its entries written in place. -/
theorem C34_array_group (env : Env) (c : Ctx) (pre ms post : List Node) (v : Value) :
    validate env v (.array (pre ++ .group ms :: post)) c = validate env v (.array (pre ++ (ms ++ post))) c := by
  cases v with
  | array a =>
    rw [array_subst (M := seqLoopS (fun m w => (lim env).arr m w c) ms)
      (fun w => by rw [arr_eq]; exact arrGroup_out env ms c w), validate_array_eq, seqLoopS_app]
    congr 1
    cases seqLoopS (fun m w => (lim env).arr m w c) pre (WArr.new a) with
    | ok w => exact (seqLoopS_app _ ms post w).symm
    | _ => rfl
  | _ => unfold validate; rw [val_eq, val_eq]; rfl

/-- An inline group `( ms )` in a map is its entries written in place. -/
theorem C34_map_group (env : Env) (c : Ctx) (pre ms post : List Node) (v : Value) :
    validate env v (.map (pre ++ .group ms :: post)) c = validate env v (.map (pre ++ (ms ++ post))) c := by
  cases v with
  | map a =>
    rw [map_subst (M := seqLoopS (fun m w => (lim env).map m w c) ms)
      (fun w => by rw [map_eq]; exact mapGroup_cut env ms c w), validate_map_eq, seqLoopS_app]
    congr 1
    cases seqLoopS (fun m w => (lim env).map m w c) pre (WMap.new a) with
    | ok w => exact (seqLoopS_app _ ms post w).symm
    | _ => rfl
  | _ => unfold validate; rw [val_eq, val_eq]; rfl

/-- `~x` and a group name in an array behave like the members they refer to, written in place, unless a
fatal error (such as the recursion limit) is reported. -/
theorem C34_array_reference (env : Env) (c : Ctx) (hc : CtxOK c) (x : Node) (ps : List String) (as ms : List Node)
    (hx : RefersArr env c x ps as ms) (hl : ps.length = as.length) (hm : Portable env c ps ms)
    (pre post : List Node) (v : Value) (hv : v.WF) :
    (∃ e, validate env v (.array (pre ++ x :: post)) c = .err e ∧ e.isFatal = true) ∨
      validate env v (.array (pre ++ x :: post)) c = validate env v (.array (pre ++ (ms ++ post))) c := by
  refine array_group_swap hc hv (fun a ha => ?_) ⟨_, rfl⟩ ⟨_, rfl⟩
  subst ha
  have e2 : validate env (.array a) (.array (pre ++ (ms ++ post))) c =
      arrayEnd (((seqLoopS (fun m w => (lim env).arr m w c) pre (WArr.new a)).andThen
        (seqLoopS (fun m w => (lim env).arr m w c) ms)).andThen (seqLoopS (fun m w => (lim env).arr m w c) post)) := by
    rw [validate_array_eq, seqLoopS_app]
    congr 1
    cases seqLoopS (fun m w => (lim env).arr m w c) pre (WArr.new a) with
    | ok w => exact seqLoopS_app _ ms post w
    | _ => rfl
  rw [e2]
  rcases refersArr_eq hx hl with h | h
  · rw [validate_array_eq, seqLoopS_app]
    cases seqLoopS (fun m w => (lim env).arr m w c) pre (WArr.new a) with
    | ok w =>
      refine .inr (.inl ⟨.structural "hit recursion limit", ?_, rfl⟩)
      dsimp only [SRes.andThen]
      rw [seqLoopS_cons, h]
      rfl
    | _ => exact .refl _
  · rw [array_subst h]
    refine arrayEnd_fat ((SFat.andThen (.refl _) fun w => portable_arr hm w).andThen fun w => .refl _)

/-- `~x` and a group name in a map behave like the members they refer to, written in place, unless a
fatal error (such as the recursion limit) is reported. -/
theorem C34_map_reference (env : Env) (c : Ctx) (hc : CtxOK c) (x : Node) (ps : List String) (as ms : List Node)
    (hx : RefersMap env c x ps as ms) (hl : ps.length = as.length) (hm : Portable env c ps ms)
    (pre post : List Node) (v : Value) (hv : v.WF) :
    (∃ e, validate env v (.map (pre ++ x :: post)) c = .err e ∧ e.isFatal = true) ∨
      validate env v (.map (pre ++ x :: post)) c = validate env v (.map (pre ++ (ms ++ post))) c := by
  cases v with
  | map a =>
    refine settle hc hv ?_
    have e2 : validate env (.map a) (.map (pre ++ (ms ++ post))) c =
        mapEnd (((seqLoopS (fun m w => (lim env).map m w c) pre (WMap.new a)).andThen
          (seqLoopS (fun m w => (lim env).map m w c) ms)).andThen (seqLoopS (fun m w => (lim env).map m w c) post)) := by
      rw [validate_map_eq, seqLoopS_app]
      congr 1
      cases seqLoopS (fun m w => (lim env).map m w c) pre (WMap.new a) with
      | ok w => exact seqLoopS_app _ ms post w
      | _ => rfl
    rw [e2]
    rcases refersMap_eq hx hl with h | h
    · rw [validate_map_eq, seqLoopS_app]
      cases seqLoopS (fun m w => (lim env).map m w c) pre (WMap.new a) with
      | ok w =>
        refine .inr (.inl ⟨.structural "hit recursion limit", ?_, rfl⟩)
        dsimp only [SRes.andThen]
        rw [seqLoopS_cons, h]
        rfl
      | _ => exact .refl _
    · rw [map_subst h]
      exact mapEnd_fat ((SFat.andThen (.refl _) fun w => portable_map hm w).andThen fun w => .refl _)
  | _ => right; unfold validate; rw [val_eq, val_eq]; rfl

/-- A group inside another group that fails later is not the same as its entries in place: `[(int,), tstr // int]`
accepts `[1, 2]` and `[int, tstr // int]` does not. -/
theorem C34_nested_group_refuted : ¬ ∀ (env : Env) (pre ms post rest : List Node) (v : Value),
    Accepts env top (.array (.choice [.group (pre ++ .group ms :: post), .group rest] :: [])) v →
    Accepts env top (.array (.choice [.group (pre ++ (ms ++ post)), .group rest] :: [])) v := by
  intro h
  have h1 := h (demoEnv []) [] [.prelude .int] [.prelude .tstr] [.prelude .int] (.array [.integer 1, .integer 2])
    (accepts_of_fuel 60 (by decide))
  have h2 : validate (demoEnv []) (.array [.integer 1, .integer 2])
      (.array [.choice [.group [.prelude .int, .prelude .tstr], .group [.prelude .int]]]) top =
      .err (.mismatch "shorter array") := validate_of_fuel 60 (by decide)
  unfold Accepts at h1
  simp only [List.nil_append, List.cons_append] at h1
  rw [h2] at h1
  cases h1

/-! Concrete cases. -/

/-- `a = [int, ~b, tstr]`, `b = [bool, * c]`, `c = int / null`. -/
def c34Env : Env := demoEnv [("b", ⟨[], .array [.prelude .bool, .occur .zeroOrMore (.rule "c" [])]⟩),
  ("c", ⟨[], .choice [.prelude .int, .prelude .nil]⟩), ("g", ⟨[], .group [.keyValue (.literal (.text "k")) (.rule "c" []) true]⟩)]

theorem c34_keys : ∀ s d, c34Env.lookup s = .ok d → d.node.KeysPlain := by
  intro s d h
  have := RuleTable.lookup_mem h
  simp only [List.mem_cons, Prod.mk.injEq, List.not_mem_nil, or_false] at this
  rcases this with ⟨_, rfl⟩ | ⟨_, rfl⟩ | ⟨_, rfl⟩ <;> simp [Node.KeysPlain, Node.KeysPlainL, Node.names]

example : RefersArr c34Env top (.unwrap "b" []) [] [] [.prelude .bool, .occur .zeroOrMore (.rule "c" [])] ∧
    Portable c34Env top [] [.prelude .bool, .occur .zeroOrMore (.rule "c" [])] ∧
    Accepts c34Env top (.array ([.prelude .int] ++ .unwrap "b" [] :: [.prelude .tstr]))
      (.array [.integer 1, .bool true, .null, .integer 5, .text "x"]) ∧
    Accepts c34Env top (.array ([.prelude .int] ++ ([.prelude .bool, .occur .zeroOrMore (.rule "c" [])] ++ [.prelude .tstr])))
      (.array [.integer 1, .bool true, .null, .integer 5, .text "x"]) :=
  ⟨.unwrap rfl rfl, .inr ⟨rfl, fun _ => rfl, by simp [Node.KeysPlain, Node.KeysPlainL], c34_keys⟩,
    accepts_of_fuel 60 (by decide), accepts_of_fuel 60 (by decide)⟩

example : RefersMap c34Env top (.rule "g" []) [] [] [.keyValue (.literal (.text "k")) (.rule "c" []) true] ∧
    Accepts c34Env top (.map (.rule "g" [] :: [.occur .optional (.keyValue (.literal (.text "z")) (.prelude .any) true)]))
      (.map [(.text "k", .null), (.text "z", .bool false)]) :=
  ⟨.named rfl rfl, accepts_of_fuel 60 (by decide)⟩

/-- C34.  A group with one entry where a type is expected is that entry; any other group is refused. -/
theorem C34_group_as_type (env : Env) (c : Ctx) (ms : List Node) (v : Value) :
    (∀ n, ms = [n] → validate env v (.group ms) c = validate env v n c) ∧
      (ms.length ≠ 1 → validate env v (.group ms) c = .err (.unsupported "standalone group")) := by
  unfold validate
  rw [val_eq]
  simp only [valBody, validateStandaloneGroup]
  constructor
  · rintro n rfl
    rfl
  · intro h
    match ms, h with
    | [], _ => rfl
    | _ :: _ :: _, _ => rfl

/-- C34.  Only arrays can be unwrapped in arrays, and only maps in maps: unwrapping anything else (also a name of an
array or map) fails on all data, as a mismatch, or at the recursion limit. -/
theorem C34_unwrap_wrong (env : Env) (c : Ctx) (s : String) (ps : List String) (as post : List Node) (n : Node)
    (hp : c.param s = none) (hs : env.lookup s = .ok ⟨ps, n⟩) (hl : ps.length = as.length) (v : Value) :
    ((∀ ms, n ≠ .array ms) → (∃ m, validate env v (.array (.unwrap s as :: post)) c = .err (.mismatch m)) ∨
      validate env v (.array (.unwrap s as :: post)) c = .err (.structural "hit recursion limit")) ∧
    ((∀ ms, n ≠ .map ms) → (∃ m, validate env v (.map (.unwrap s as :: post)) c = .err (.mismatch m)) ∨
      validate env v (.map (.unwrap s as :: post)) c = .err (.structural "hit recursion limit")) := by
  have hlook := lookupRule_global (as := as) hp (env := env)
  rw [hs] at hlook
  unfold validate
  rw [val_eq, val_eq]
  simp only [valBody, validateArray, validateMap]
  constructor
  · intro hn
    cases v with
    | array a =>
      dsimp only [seqLoopS]
      rw [arr_eq]
      simp only [arrBody]
      rw [hlook]
      rcases derive_cases c ps n as hl with ⟨h, -⟩ | h
      · simp only [Except.bind, h]
        exact .inr trivial
      · simp only [Except.bind, h, validateArrayUnwrap]
        exact .inl ⟨_, rfl⟩
    | _ => exact .inl ⟨_, rfl⟩
  · intro hn
    cases v with
    | map a =>
      dsimp only [seqLoopS]
      rw [map_eq]
      simp only [mapBody]
      rw [hlook]
      rcases derive_cases c ps n as hl with ⟨h, -⟩ | h
      · simp only [Except.bind, h]
        exact .inr rfl
      · simp only [Except.bind, h, validateMapUnwrap]
        exact .inl ⟨_, rfl⟩
    | _ => exact .inl ⟨_, rfl⟩

/-- `[~x]` with `x = tstr`. -/
example : (∃ m, validate (demoEnv [("x", ⟨[], .prelude .tstr⟩)]) (.array [.text ""]) (.array [.unwrap "x" []]) top = .err (.mismatch m)) ∨
    validate (demoEnv [("x", ⟨[], .prelude .tstr⟩)]) (.array [.text ""]) (.array [.unwrap "x" []]) top =
      .err (.structural "hit recursion limit") :=
  (C34_unwrap_wrong _ _ "x" [] [] [] _ rfl rfl rfl _).1 (by simp)

example : validate (demoEnv []) (.integer 1) (.group [.prelude .int, .prelude .int]) top = .err (.unsupported "standalone group") :=
  (C34_group_as_type _ _ _ _).2 (by decide)

end Cddl
