import Verif.Spec.Fault
import Verif.Proofs.Message
import Verif.Proofs.Uses

/-! # C61  Parts of a schema that make no sense where they stand are reported, whatever the data -/

namespace Cddl

variable {env : Env}

theorem NoGroup.chf {c : Ctx} {s : String} {as : List Node} (h : NoGroup env c s as) (v : Value) :
    (lim env).chf s as v c = .err (.structural "improper choiceify target") := by
  induction h with
  | here hl hg hr =>
    rename_i n
    rw [chf_eq]
    simp only [chfBody, hl, Res.ofExcept, Res.bind]
  | name hl _ ih =>
    rw [chf_eq]
    simp only [chfBody, hl, Res.ofExcept, Res.bind]
    exact ih

theorem NoGroup.mchf {c : Ctx} {s : String} {as : List Node} (h : NoGroup env c s as) (w : WMap) :
    (lim env).mchf s as w c = .err (.structural "improper map choiceify target") w := by
  induction h with
  | here hl hg hr =>
    rename_i n
    rw [mchf_eq]
    simp only [mchfBody, hl]
  | name hl _ ih =>
    rw [mchf_eq]
    simp only [mchfBody, hl]
    exact ih

theorem deref_wrong {c : Ctx} {a n : Node} (h : Names env c a n) (hn : ∀ l, n ≠ .literal l) :
    (lim env).deref a c = .err (.structural "confusing type on range operator") := by
  induction h with
  | here c n hr =>
    rw [deref_eq]
    unfold derefBody
    split
    · exact absurd rfl (hn _)
    · exact absurd rfl (hr _ _)
    · rfl
  | rule hl _ ih =>
    rw [deref_eq]
    simp only [derefBody, hl, Res.ofExcept, Res.bind]
    exact ih hn

theorem NoType.fatal {c : Ctx} {n : Node} {e : Err} (h : NoType env c n e) : e.isFatal = true := by
  induction h <;> first | rfl | assumption

/-- C61.  Whatever the data, a part of a schema that cannot be used as a type is reported as such. -/
theorem C61_type (env : Env) (c : Ctx) (n : Node) (e : Err) (v : Value) (h : NoType env c n e) :
    validate env v n c = .err e := by
  unfold validate
  induction h with
  | keyValue k t cut => rw [val_eq]; rfl
  | occur o n => rw [val_eq]; rfl
  | unwrap s as => rw [val_eq]; rfl
  | @group c ms hm =>
    rw [val_eq]
    simp only [valBody, validateStandaloneGroup]
    split
    · exact absurd rfl hm
    · rfl
  | single _ ih => rw [val_eq]; simpa only [valBody, validateStandaloneGroup] using ih
  | undefined hl he => rw [val_eq]; simp only [valBody, validateRule, hl, Res.ofExcept, Res.bind]
  | rule hl _ ih => rw [val_eq]; simp only [valBody, validateRule, hl, Res.ofExcept, Res.bind]; exact ih
  | choice ns h ih => rw [val_eq]; simp [valBody, validateChoice, choiceLoop, ih, h.fatal]
  | start h hn => rw [val_eq]; simp only [valBody, validateRange, deref_wrong h hn, Res.bind]
  | stop ha h hn => rw [val_eq]; simp only [valBody, validateRange, ha.deref, deref_wrong h hn, Res.bind]
  | @kinds c a l b m i ha hb hk =>
    rw [val_eq]
    simp only [valBody, validateRange, ha.deref, hb.deref, Res.bind]
    cases l <;> cases m <;> first | exact absurd rfl hk | (cases v <;> rfl)
  | sizeStart hz ha hs =>
    rw [val_eq]
    simp only [valBody, validateControl, validateControlSize, hz.chase, Res.bind, normalizeSizeRange]
    rw [hs.eq]
  | sizeStop hz hb hs =>
    rw [val_eq]
    simp only [valBody, validateControl, validateControlSize, hz.chase, Res.bind, normalizeSizeRange]
    rw [hs.eq]
  | sizeLow hz hj =>
    rw [val_eq]
    simp only [valBody, validateControl, validateControlSize, hz.chase, Res.bind, normalizeSizeRange, toU64]
    rw [if_neg (by omega)]
  | sizeHigh hz h0 hj hk =>
    rw [val_eq]
    simp only [valBody, validateControl, validateControlSize, hz.chase, Res.bind, normalizeSizeRange, toU64]
    rw [if_pos (by omega), if_neg (by omega)]
  | choiceify h => rw [val_eq]; exact h.chf v
  | choiceifyUndefined hl he => rw [val_eq]; simp only [valBody]; rw [chf_eq]; simp only [chfBody, hl, Res.ofExcept, Res.bind]

theorem NoMapEntry.fatal {c : Ctx} {n : Node} {e : Err} (h : NoMapEntry env c n e) : e.isFatal = true := by
  induction h <;> first | rfl | assumption

theorem noMapEntry_err {c : Ctx} {n : Node} {e : Err} (h : NoMapEntry env c n e) (w : WMap) :
    (lim env).map n w c = .err e w := by
  induction h generalizing w with
  | choiceify h => rw [map_eq]; exact h.mchf w
  | undefined hl he => rw [map_eq]; simp only [mapBody, hl]
  | unwrapUndefined hl he => rw [map_eq]; simp only [mapBody, hl]
  | choiceifyUndefined hl he => rw [map_eq]; simp only [mapBody]; rw [mchf_eq]; simp only [mchfBody, hl]
  | rule hl _ ih => rw [map_eq]; simp only [mapBody, hl]; exact ih w
  | unwrap hl _ ih => rw [map_eq]; simp only [mapBody, hl, validateMapUnwrap, seqLoopS, ih]
  | occur o h ih =>
    rw [map_eq]
    simp only [mapBody, validateMapOccur, occurLoopS, ih, isMismatch_fatal h.fatal]
    rfl
  | group ns h ih =>
    rw [map_eq]
    simp only [mapBody, validateMapGroup, seqLoopS, ih, WMap.snapshot, WMap.rewind, eraseMapcut_fatal h.fatal]
    rfl
  | choice ns h ih =>
    rw [map_eq]
    simp [mapBody, validateMapChoice, choiceLoopS, ih, isMismatch_fatal h.fatal]
  | inline ns h ih =>
    rw [map_eq]
    simp [mapBody, validateMapChoice, choiceLoopS, ih, isMismatch_fatal h.fatal]
  | _ => rw [map_eq]; rfl

/-- C61.  Whatever the map, a part of a schema that cannot be an entry of a map is reported as such. -/
theorem C61_map_entry (env : Env) (c : Ctx) (n : Node) (ms : List Node) (e : Err) (m : VMap) (h : NoMapEntry env c n e) :
    validate env (.map m) (.map (n :: ms)) c = .err e := by
  unfold validate
  rw [val_eq]
  simp only [valBody, validateMap, seqLoopS, noMapEntry_err h, eraseMapcut_fatal h.fatal]

theorem NoArrayEntry.fatal {c : Ctx} {n : Node} {e : Err} (h : NoArrayEntry env c n e) : e.isFatal = true := by
  induction h with
  | item _ h => exact h.fatal
  | keyValue _ _ h => exact h.fatal
  | _ => assumption

theorem noArrayEntry_err {c : Ctx} {n : Node} {e : Err} (h : NoArrayEntry env c n e) (w : WArr) (hw : w.array ≠ []) :
    (lim env).arr n w c = .err e w := by
  induction h generalizing w with
  | item hi h =>
    obtain ⟨a, s⟩ := w
    obtain ⟨x, xs, rfl⟩ := List.exists_cons_of_ne_nil hw
    rw [arr_isItem hi]
    simp only [validateArrayValue]
    have := C61_type env _ _ _ x h
    unfold validate at this
    rw [this]
    rfl
  | keyValue k cut h =>
    obtain ⟨a, s⟩ := w
    obtain ⟨x, xs, rfl⟩ := List.exists_cons_of_ne_nil hw
    rw [arr_eq]
    simp only [arrBody, validateArrayValue]
    have := C61_type env _ _ _ x h
    unfold validate at this
    rw [this]
    rfl
  | undefined hl he => rw [arr_eq]; simp only [arrBody, hl]
  | unwrapUndefined hl he => rw [arr_eq]; simp only [arrBody, hl]
  | rule hl _ ih => rw [arr_eq]; simp only [arrBody, hl]; exact ih w hw
  | unwrap hl _ ih => rw [arr_eq]; simp only [arrBody, hl, validateArrayUnwrap, seqLoopS, ih w hw]
  | occur o h ih =>
    rw [arr_eq]
    simp only [arrBody, validateArrayOccur, occurLoopS, ih w hw, isMismatch_fatal h.fatal]
    rfl
  | group ns h ih =>
    rw [arr_eq]
    simp only [arrBody, validateArrayGroup, seqLoopS, WArr.snapshot, ih ⟨w.array, [] :: w.snaps⟩ hw, WArr.rewind]
    rfl
  | choice ns h ih =>
    rw [arr_eq]
    simp [arrBody, choiceLoopS, ih w hw, h.fatal]

/-- C61.  Whatever the elements, a part of a schema that cannot be an entry of an array is reported as such. -/
theorem C61_array_entry (env : Env) (c : Ctx) (n : Node) (ms : List Node) (e : Err) (x : Value) (xs : List Value)
    (h : NoArrayEntry env c n e) : validate env (.array (x :: xs)) (.array (n :: ms)) c = .err e := by
  unfold validate
  rw [val_eq]
  simp only [valBody, validateArray, seqLoopS]
  rw [noArrayEntry_err h (WArr.new (x :: xs)) (by simp [WArr.new])]

/-- C61.  Unwrapping something that is no array among the entries of an array, or no map among those of a map, is a mismatch
(and so leaves other options their chance). -/
theorem C61_unwrap (env : Env) (c c' : Ctx) (s : String) (as ms : List Node) (n : Node)
    (hl : c.lookupRule env s as = .ok (n, c')) :
    ((∀ l, n ≠ .array l) → ∀ xs, validate env (.array xs) (.array (.unwrap s as :: ms)) c = .err (.mismatch "unwrap array")) ∧
    ((∀ l, n ≠ .map l) → ∀ m, validate env (.map m) (.map (.unwrap s as :: ms)) c = .err (.mismatch "unwrap map")) := by
  constructor
  · intro hn xs
    unfold validate
    rw [val_eq]
    simp only [valBody, validateArray, seqLoopS]
    rw [arr_eq]
    cases n <;> first | exact absurd rfl (hn _) | simp only [arrBody, hl, validateArrayUnwrap]
  · intro hn m
    unfold validate
    rw [val_eq]
    simp only [valBody, validateMap, seqLoopS]
    rw [map_eq]
    cases n <;> first | exact absurd rfl (hn _) | (simp only [mapBody, hl, validateMapUnwrap]; rfl)

/-! ## Examples -/

/-- `name = tstr   low = 1   point = (x: int, y: int)   list = [* int]   part = (? name)` -/
def c61Env : Env := demoEnv [("name", ⟨[], .prelude .tstr⟩), ("low", ⟨[], .literal (.int 1)⟩),
  ("point", ⟨[], .group [.keyValue (.literal (.text "x")) (.prelude .int) true, .keyValue (.literal (.text "y")) (.prelude .int) true]⟩),
  ("list", ⟨[], .array [.occur .zeroOrMore (.prelude .int)]⟩), ("part", ⟨[], .group [.occur .optional (.rule "name" [])]⟩)]

/-- `low..name` -/
example (v : Value) : validate c61Env v (.range (.rule "low" []) (.rule "name" []) true) top =
    .err (.structural "confusing type on range operator") :=
  C61_type _ _ _ _ v (.stop (.rule (by rfl) (.literal _ _)) (.rule (by rfl) (.here _ _ (by simp))) (by simp))

/-- `low..name` with `name` at the start -/
example (v : Value) : validate c61Env v (.range (.rule "name" []) (.rule "nix" []) true) top =
    .err (.structural "confusing type on range operator") :=
  C61_type _ _ _ _ v (.start (.rule (by rfl) (.here _ _ (by simp))) (by simp))

/-- `low..2.5` -/
example (v : Value) (f : F64) : validate c61Env v (.range (.rule "low" []) (.literal (.float f)) false) top =
    .err (.structural "mismatched types on range operator") :=
  C61_type _ _ _ _ v (.kinds (.rule (by rfl) (.literal _ _)) (.literal _ _) (by simp [Literal.kind]))

/-- `tstr .size (low..3)`, `tstr .size (1..name)` and `tstr .size (-1..3)` -/
example (v : Value) : validate c61Env v
    (.ctl .size (.prelude .tstr) (.range (.rule "low" []) (.literal (.int 3)) true)) top =
    .err (.structural "bad .size range start type (Rule)") :=
  C61_type _ _ _ _ v (.sizeStart (.here _ _ (by simp)) (by simp) (.rule _ _))
example (v : Value) : validate c61Env v
    (.ctl .size (.prelude .tstr) (.range (.literal (.int 1)) (.literal (.text "z")) true)) top =
    .err (.structural "bad .size range end type (\"z\")") :=
  C61_type _ _ _ _ v (.sizeStop (.here _ _ (by simp)) (by simp) (.text _))
example (v : Value) : validate c61Env v
    (.ctl .size (.prelude .tstr) (.range (.literal (.int (-1))) (.literal (.int 3)) true)) top =
    .err (.structural "bad .size limit -1") :=
  C61_type _ _ _ _ v (.sizeLow (j := -1) (.here _ _ (by simp)) (by omega))
example (v : Value) : validate c61Env v
    (.ctl .size (.prelude .tstr) (.range (.literal (.int 1)) (.literal (.int (2 ^ 64))) true)) top =
    .err (.structural ("bad .size limit " ++ toString (2 ^ 64 : Int))) :=
  C61_type _ _ _ _ v (.sizeHigh (.here _ _ (by simp)) (by omega) (by omega) (by omega))

/-- `point / int`, `&list` and `part / int` -/
example (v : Value) : validate c61Env v (.choice [.rule "point" [], .prelude .int]) top =
    .err (.unsupported "standalone group") :=
  C61_type _ _ _ _ v (.choice _ (.rule (by rfl) (.group (by simp))))
example (v : Value) : validate c61Env v (.choiceify "list" []) top = .err (.structural "improper choiceify target") :=
  C61_type _ _ _ _ v (.choiceify (.here (by rfl) (by simp) (by simp)))
example (v : Value) : validate c61Env v (.choice [.rule "part" [], .prelude .int]) top =
    .err (.structural "unexpected Occur") :=
  C61_type _ _ _ _ v (.choice _ (.rule (by rfl) (.single (.occur _ _))))

/-- `{* part, …}`, `{&name, …}` and `{~nix, …}` -/
example (m : VMap) (ms : List Node) : validate c61Env (.map m) (.map (.occur .zeroOrMore (.rule "part" []) :: ms)) top =
    .err (.structural "prelude type map member") :=
  C61_map_entry _ _ _ _ _ _ (.occur _ (.rule (by rfl) (.group _ (.occur _ (.rule (by rfl) (.prelude _))))))
example (m : VMap) (ms : List Node) : validate c61Env (.map m) (.map (.choiceify "name" [] :: ms)) top =
    .err (.structural "improper map choiceify target") :=
  C61_map_entry _ _ _ _ _ _ (.choiceify (.here (by rfl) (by simp) (by simp)))
example (m : VMap) (ms : List Node) : validate c61Env (.map m) (.map (.unwrap "nix" [] :: ms)) top =
    .err (.missingRule "nix") :=
  C61_map_entry _ _ _ _ _ _ (.unwrapUndefined (by rfl) rfl)

/-- `[+ (a: 1..name), …]` -/
example (x : Value) (xs : List Value) (ms : List Node) : validate c61Env (.array (x :: xs))
    (.array (.occur .oneOrMore (.group [.keyValue (.literal (.text "a")) (.range (.literal (.int 1)) (.rule "name" []) true) true]) ::
      ms)) top = .err (.structural "confusing type on range operator") :=
  C61_array_entry _ _ _ _ _ _ _ (.occur _ (.group _ (.keyValue _ _
    (.stop (.literal _ _) (.rule (by rfl) (.here _ _ (by simp))) (by simp)))))

/-- `[~name, …]` and `{~list, …}` -/
example (xs : List Value) (m : VMap) (ms : List Node) :
    validate c61Env (.array xs) (.array (.unwrap "name" [] :: ms)) top = .err (.mismatch "unwrap array") ∧
    validate c61Env (.map m) (.map (.unwrap "list" [] :: ms)) top = .err (.mismatch "unwrap map") :=
  ⟨(C61_unwrap _ _ _ _ _ _ _ (by rfl)).1 (by simp) xs, (C61_unwrap _ _ _ _ _ _ _ (by rfl)).2 (by simp) m⟩

end Cddl
