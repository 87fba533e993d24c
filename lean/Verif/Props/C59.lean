import Verif.Proofs.Message
import Verif.Proofs.Print
import Verif.Props.C04
import Verif.Props.C05
import Verif.Props.C08
import Verif.Props.C11
import Verif.Props.C17Alt
import Verif.Props.C54

/-! # C59  Messages say what was expected

The theorems about verdicts speak of "a mismatch" without its text.  Here are the texts. -/

namespace Cddl

/-- C59.  Data that is not of a prelude type: the message is the name of the type. -/
theorem C59_type (env : Env) (c : Ctx) (p : PreludeType) (v : Value) (h : ¬ InPrelude p v) :
    validate env v (.prelude p) c = .err (.mismatch p.word) := by
  unfold validate
  rw [val_eq]
  cases p <;> cases v <;> simp [InPrelude] at h <;> first | rfl | skip
  all_goals
    simp only [valBody, validatePreludeType]
    rw [if_neg (by omega)]
    rfl

/-- C59.  Data that is not the literal: the message is the literal. -/
theorem C59_literal (env : Env) (c : Ctx) (l : Literal) (v : Value) (s : String) (h : ¬ Denotes l v)
    (hs : Shows env.fmtF64 (.literal l) s) : validate env v (.literal l) c = .err (.mismatch s) := by
  have ha := (not_congr (C05_literal env c l v).1).mpr h
  unfold Accepts validate at ha
  unfold validate
  rw [val_eq] at ha ⊢
  simp only [valBody, validateLiteral] at ha ⊢
  split
  · rename_i hb; rw [if_pos hb] at ha; exact absurd rfl ha
  · rw [hs.literal]

/-- C59.  Data outside of a range: the message is the range.  Ends given by a name are written as `Rule`. -/
theorem C59_range (env : Env) (c : Ctx) (s e : Node) (a b : Literal) (inclusive : Bool) (v : Value) (x y : String)
    (hs : Endpoint env c s a) (he : Endpoint env c e b) (hk : a.kind = b.kind)
    (hx : Shows env.fmtF64 s x) (hy : Shows env.fmtF64 e y) (h : ¬ Accepts env c (.range s e inclusive) v) :
    validate env v (.range s e inclusive) c = .err (.mismatch (x ++ (if inclusive then ".." else "...") ++ y)) := by
  unfold Accepts validate at h
  unfold validate
  rw [val_eq] at h ⊢
  simp only [valBody, validateRange, hs.deref, he.deref, Res.bind, rangeDisplay, hx.eq, hy.eq] at h ⊢
  cases a <;> cases b <;> simp [Literal.kind] at hk <;> cases v <;> simp [rangeMatch, sameKind] at h ⊢ <;> exact h

/-- C59.  Data that none of the options of a choice accepts: the message is the number of options. -/
theorem C59_choice (env : Env) (c : Ctx) (l : List Node) (v : Value)
    (h : ∀ n ∈ l, ∃ m, validate env v n c = .err (.mismatch m)) :
    validate env v (.choice l) c = .err (.mismatch ("choice of " ++ toString l.length)) := by
  unfold validate
  rw [val_eq]
  simp only [valBody, validateChoice]
  generalize "choice of " ++ toString l.length = msg
  induction l with
  | nil => rfl
  | cons n ns ih =>
    obtain ⟨m, hm⟩ := h n (by simp)
    unfold validate at hm
    simp only [choiceLoop, hm, Err.isFatal, Bool.false_eq_true, if_false]
    exact ih fun n hn => h n (by simp [hn])

/-- C59.  Arrays of plain entries: all answers.  The elements are taken in order, and the first one that does not fit decides. -/
theorem C59_tuple (env : Env) (c : Ctx) (ms ts : List Node) (xs : List Value) (r : Res Unit) (h : All2 (Entry env c) ms ts) :
    validate env (.array xs) (.array ms) c = r ↔ TupleSays env c ms xs r := by
  rw [array_answer]
  constructor
  · rintro rfl
    obtain ⟨r, hr⟩ := TupleSays.exists h xs
    rw [hr.eq (WArr.new xs) rfl]
    exact hr
  · intro hr; exact hr.eq _ rfl

/-- C59.  Maps with literal keys: all answers.  The fields are looked up in the order of the schema, and the first required
field that is missing, or field whose value does not fit, decides. -/
theorem C59_record (env : Env) (c : Ctx) (fs : List Field) (m : VMap) (r : Res Unit)
    (hl : ∀ s m, env.lookup s ≠ .error (.mapCut m)) (hm : (Value.map m).WF) :
    validate env (.map m) (.map (fs.map Field.node)) c = r ↔ RecordSays env c fs m r := by
  rw [map_answer]
  have hE : OkErr env fun e => ∀ m, e ≠ .mapCut m := ⟨fun _ h => h, fun s e he m hm => hl s m (hm ▸ he)⟩
  have hn : ∀ p ∈ m, ∀ f ∈ fs, ∀ s, validate env p.2 f.type c ≠ .err (.mapCut s) := by
    intro p hp f _ s hv
    have := (lim_good hE).val p.2 f.type c ((Value.WFMap_iff m).mp hm.2 p hp).2
    unfold validate at hv
    rw [hv] at this
    exact this s rfl
  have hw : VMap.PW (WMap.new m).map := (VMap.sorted_iff _).mp hm.1
  constructor
  · rintro rfl
    obtain ⟨r, hr⟩ := RecordSays.exists (env := env) (c := c) fs m
    rw [hr.eq hn (WMap.new m) hw rfl]
    exact hr
  · intro hr; exact hr.eq hn _ hw rfl

/-- C59.  Data that is no array, and data that is no map. -/
theorem C59_container (env : Env) (c : Ctx) (ms : List Node) (v : Value) :
    ((∀ a, v ≠ .array a) → validate env v (.array ms) c = .err (.mismatch "array")) ∧
    ((∀ m, v ≠ .map m) → validate env v (.map ms) c = .err (.mismatch "map")) := by
  unfold validate
  rw [val_eq, val_eq]
  constructor
  · intro h; cases v <;> first | rfl | exact absurd rfl (h _)
  · intro h; cases v <;> first | rfl | exact absurd rfl (h _)

theorem Sign.eq {o : OccurLimit} {n u : Nat} {g : String} (h : Sign o n u g) :
    o.symbol = g ∧ o.limits = (n, u) ∧ 0 < n := by
  cases h with
  | plus => exact ⟨rfl, rfl, by omega⟩
  | numbers n u h => refine ⟨?_, rfl, h⟩; simp only [OccurLimit.symbol]; rw [if_neg (by omega)]

/-- C59.  An array has too few elements for an occurrence: `ys` are accepted, then comes the end or an element that is not. -/
theorem C59_too_few (env : Env) (c : Ctx) (o : OccurLimit) (n u : Nat) (m t : Node) (post : List Node) (ys zs : List Value)
    (g s : String) (hm : Entry env c m t) (ho : Sign o n u g) (hs : Shows env.fmtF64 m s)
    (hy : ∀ y ∈ ys, Accepts env c t y) (hn : ys.length < n) (hu : ys.length < u)
    (hz : ∀ z zs', zs = z :: zs' → ∃ k, validate env z t c = .err (.mismatch k)) :
    validate env (.array (ys ++ zs)) (.array (.occur o m :: post)) c =
      .err (.mismatch ("more array element [" ++ g ++ " " ++ s ++ "]")) := by
  obtain ⟨h1, h2, -⟩ := ho.eq
  have key : ∀ (msg : String) (ys : List Value) (w : WArr) (count : Nat), w.array = ys ++ zs →
      (∀ y ∈ ys, Accepts env c t y) → count + ys.length < n → count + ys.length < u → ∀ k, ys.length < k →
      ∃ w', occurLoopS (fun w => (lim env).arr m w c) n u msg k count w = .err (.mismatch msg) w' := by
    intro msg ys
    induction ys with
    | nil =>
      intro w count hw _ hc _ k hk
      obtain ⟨k, rfl⟩ : ∃ j, k = j + 1 := ⟨k - 1, by simp at hk; omega⟩
      have hbad : ∃ e, (lim env).arr m w c = .err (.mismatch e) w := by
        cases zs with
        | nil => exact hm.takesOne.1 w hw
        | cons z zs =>
          obtain ⟨e, he⟩ := hz z zs rfl
          have := hm.takesOne.2 w z zs hw
          dsimp only at this
          rw [this, he]
          exact ⟨e, rfl⟩
      obtain ⟨e, he⟩ := hbad
      refine ⟨w, ?_⟩
      simp only [occurLoopS, he, Err.isMismatch, if_true]
      rw [if_pos (by simpa using hc)]
    | cons y ys ih =>
      intro w count hw hy hc hcu k hk
      obtain ⟨k, rfl⟩ : ∃ j, k = j + 1 := ⟨k - 1, by simp at hk; omega⟩
      rw [List.cons_append] at hw
      have := hm.takesOne.2 w y _ hw
      dsimp only at this
      have hyv := hy y (by simp)
      unfold Accepts at hyv
      obtain ⟨w', h3, h4⟩ := popFront_ok hw
      simp only [List.length_cons] at hc hcu hk
      simp only [occurLoopS, this, hyv, h3]
      rw [if_neg (by omega)]
      exact ih w' (count + 1) h4 (fun y h => hy y (by simp [h])) (by omega) (by omega) k (by omega)
  rw [array_answer]
  simp only [seqLoopS]
  rw [arr_eq]
  simp only [arrBody, validateArrayOccur, h2, occurDisplay, h1, hs.eq]
  obtain ⟨w', hw'⟩ := key ("more array element [" ++ (g ++ " " ++ s) ++ "]") ys (WArr.new (ys ++ zs)) 0 rfl hy
    (by omega) (by omega) (u + 1) (by omega)
  rw [hw']
  simp only [arrAnswer, String.append_assoc]

theorem typed_absent {env : Env} {c : Ctx} {k t : Node} {cut : Bool} {m : VMap} {s : String}
    (hk : ∀ l, k ≠ .literal l) (hs : Shows env.fmtF64 k s) (hm : ∀ p ∈ m, ∃ e, validate env p.1 k c = .err e) :
    validateMapKeyvalue env (lim env) k t cut (WMap.new m) c = .err (.mismatch ("map{" ++ s ++ "}")) (WMap.new m) := by
  have h1 : ∀ (msg : String) (m : VMap), (∀ p ∈ m, ∃ e, validate env p.1 k c = .err e) →
      mapSearchLoop (fun key => (lim env).val key k c) msg m = .err (.mismatch msg) := by
    intro msg m
    induction m with
    | nil => intro _; rfl
    | cons p m ih =>
      intro h
      obtain ⟨e, he⟩ := h p (by simp)
      unfold validate at he
      simp only [mapSearchLoop, he]
      exact ih fun q hq => h q (by simp [hq])
  have h2 : validateMapKey env (lim env) k (WMap.new m) c = .err (.mismatch ("map{" ++ s ++ "}")) := by
    rw [← hs.eq]
    unfold validateMapKey
    split
    · exact absurd rfl (hk _)
    · exact h1 _ m hm
  simp only [validateMapKeyvalue, h2]

theorem size_empty {z : SizeArg} {a b : Nat} {i : Bool} (h : ∀ k, z.Allows k ↔ a ≤ k ∧ if i then k ≤ b else k < b) :
    (∀ k, ¬ z.Allows k) ↔ (a > b ∨ a = b ∧ i = false) := by
  constructor
  · intro h1
    have := (not_congr (h a)).mp (h1 a)
    cases i <;> simp at this ⊢ <;> omega
  · intro h1 k hk
    have := (h k).mp hk
    cases i <;> simp at this h1 <;> omega

theorem size_above {z : SizeArg} {a b : Nat} {i : Bool} (h : ∀ k, z.Allows k ↔ a ≤ k ∧ if i then k ≤ b else k < b)
    (hne : ¬ (a > b ∨ a = b ∧ i = false)) {k : Nat} : (∀ j, z.Allows j → k < j) ↔ k < a := by
  constructor
  · intro h1
    refine h1 a ((h a).mpr ?_)
    cases i <;> simp at hne ⊢ <;> omega
  · intro h1 j hj
    have := ((h j).mp hj).1
    omega

/-- C59.  A map has no pair for a key that is a type: the message is the type. -/
theorem C59_no_key (env : Env) (c : Ctx) (k t : Node) (cut : Bool) (post : List Node) (m : VMap) (s : String)
    (hk : ∀ l, k ≠ .literal l) (hs : Shows env.fmtF64 k s) (hm : ∀ p ∈ m, ∃ e, validate env p.1 k c = .err e) :
    validate env (.map m) (.map (.keyValue k t cut :: post)) c = .err (.mismatch ("map{" ++ s ++ "}")) := by
  rw [map_answer]
  simp only [seqLoopS]
  rw [keyValue_eq]
  rw [typed_absent hk hs hm]
  rfl

/-- C59.  The same below an occurrence that asks for at least one pair: the message is the occurrence, key and type. -/
theorem C59_no_pair (env : Env) (c : Ctx) (o : OccurLimit) (n u : Nat) (k t : Node) (cut : Bool) (post : List Node) (m : VMap)
    (g s : String) (ho : Sign o n u g) (hs : Shows env.fmtF64 (.keyValue k t cut) s)
    (hk : ∀ l, k ≠ .literal l) (hm : ∀ p ∈ m, ∃ e, validate env p.1 k c = .err e) :
    validate env (.map m) (.map (.occur o (.keyValue k t cut) :: post)) c =
      .err (.mismatch ("map{" ++ g ++ " " ++ s ++ "}]")) := by
  obtain ⟨h1, h2, h3⟩ := ho.eq
  rw [map_answer]
  simp only [seqLoopS]
  rw [map_eq]
  simp only [mapBody, validateMapOccur, h2, occurDisplay, h1, hs.eq, occurLoopS]
  rw [keyValue_eq, typed_absent hk (shows_display _ _) hm]
  simp only [Err.isMismatch, if_true, h3, mapAnswer, Err.eraseMapcut, String.append_assoc]

/-- C59.  Comparisons: the message is the type when the data is not of the type, and otherwise the complaint of the table. -/
theorem C59_control (env : Env) (c : Ctx) (op : CtlOp) (t a : Node) (p : PreludeType) (n : Int) (v : Value)
    (hop : op ≠ .size) (ht : Names env c t (.prelude p)) (hp : p = .uint ∨ p = .nint ∨ p = .int)
    (ha : Names env c a (.literal (.int n))) :
    (¬ InPrelude p v → validate env v (.ctl op t a) c = .err (.mismatch p.word)) ∧
    (InPrelude p v → ¬ Accepts env c (.ctl op t a) v →
      validate env v (.ctl op t a) c = .err (.mismatch (op.complaint p))) := by
  unfold Accepts validate
  rw [val_eq]
  have h1 := ht.chase
  have h2 := ha.chase
  cases op <;> simp only [valBody, validateControl, validateControlLt, validateControlLe,
    validateControlGt, validateControlGe, h1, h2, Res.bind, limitOf]
  · exact absurd rfl hop
  all_goals
    rcases hp with rfl | rfl | rfl <;> cases v <;>
      simp [validateLtUint, validateLtNint, validateLtInt, validateLeUint, validateLeNint,
        validateLeInt, validateGtUint, validateGtNint, validateGtInt, validateGeUint,
        validateGeNint, validateGeInt, InPrelude, PreludeType.word, CtlOp.complaint] <;>
      (repeat' split) <;> simp_all

/-- C59.  Comparisons with something that is no integer, and of something that is no integer type. -/
theorem C59_bad_control (env : Env) (c : Ctx) (op : CtlOp) (t a t' a' : Node) (v : Value) (s : String)
    (hop : op ≠ .size) (ht : Names env c t t') (ha : Names env c a a') :
    ((∀ n, a' ≠ .literal (.int n)) → Shows env.fmtF64 a' s →
      validate env v (.ctl op t a) c = .err (.structural ("bad ." ++ op.word ++ " argument type (" ++ s ++ ")"))) ∧
    (∀ n, a' = .literal (.int n) → t' = .prelude .float →
      validate env v (.ctl op t a) c = .err (.structural ("." ++ op.word ++ " for float is not supported yet"))) ∧
    (∀ n, a' = .literal (.int n) → t' ≠ .prelude .uint → t' ≠ .prelude .nint → t' ≠ .prelude .int → t' ≠ .prelude .float →
      Shows env.fmtF64 t' s →
      validate env v (.ctl op t a) c = .err (.structural ("bad ." ++ op.word ++ " target type (" ++ s ++ ")"))) := by
  unfold validate
  rw [val_eq]
  have h1 := ht.chase
  have h2 := ha.chase
  refine ⟨fun h hs => ?_, ?_, ?_⟩
  · have h3 : ∀ w, limitOf env w a' = .err (.structural ("bad ." ++ w ++ " argument type (" ++ s ++ ")")) := by
      intro w
      rw [← hs.eq]
      cases a' <;> try rfl
      rename_i l
      cases l <;> first | rfl | exact absurd rfl (h _)
    cases op <;> simp only [valBody, validateControl, validateControlLt, validateControlLe,
      validateControlGt, validateControlGe, h2, Res.bind, h3, CtlOp.word]
    exact absurd rfl hop
  · rintro n rfl rfl
    cases op <;> simp only [valBody, validateControl, validateControlLt, validateControlLe,
      validateControlGt, validateControlGe, h1, h2, Res.bind, limitOf, CtlOp.word]
    exact absurd rfl hop
    all_goals decide
  · rintro n rfl n1 n2 n3 n4 hs
    rw [← hs.eq]
    cases op <;> simp only [valBody, validateControl, validateControlLt, validateControlLe,
      validateControlGt, validateControlGe, h1, h2, Res.bind, limitOf, CtlOp.word]
    · exact absurd rfl hop
    all_goals
      first
        | rw [show "bad ." ++ "lt" ++ " target type (" = "bad .lt target type (" by decide]
        | rw [show "bad ." ++ "le" ++ " target type (" = "bad .le target type (" by decide]
        | rw [show "bad ." ++ "gt" ++ " target type (" = "bad .gt target type (" by decide]
        | rw [show "bad ." ++ "ge" ++ " target type (" = "bad .ge target type (" by decide]

/-- C59.  `.size` with something that is neither an integer nor a range, with a number that is no `u64`, and on something
other than `uint`, `tstr` and `bstr`. -/
theorem C59_bad_size (env : Env) (c : Ctx) (t a t' a' : Node) (v : Value) (s : String)
    (ht : Names env c t t') (ha : Names env c a a') :
    ((∀ n, a' ≠ .literal (.int n)) → (∀ x y i, a' ≠ .range x y i) → Shows env.fmtF64 a' s →
      validate env v (.ctl .size t a) c = .err (.structural ("bad .size argument type (" ++ s ++ ")"))) ∧
    (∀ n, a' = .literal (.int n) → n < 0 ∨ 18446744073709551616 ≤ n →
      validate env v (.ctl .size t a) c = .err (.structural ("bad .size limit " ++ toString n))) ∧
    (∀ z : SizeArg, z.Small → a' = z.node → t' ≠ .prelude .uint → t' ≠ .prelude .tstr → t' ≠ .prelude .bstr →
      Shows env.fmtF64 t' s →
      validate env v (.ctl .size t a) c = .err (.structural ("bad .size target type (" ++ s ++ ")"))) := by
  unfold validate
  rw [val_eq]
  simp only [valBody, validateControl, validateControlSize, ht.chase, ha.chase, Res.bind]
  refine ⟨fun h h' hs => ?_, ?_, ?_⟩
  · rw [← hs.eq]
    cases a' <;> first | rfl | exact absurd rfl (h' _ _ _) | skip
    rename_i l
    cases l <;> first | rfl | exact absurd rfl (h _)
  · rintro n rfl h
    simp only [normalizeSizeRange, toU64]
    rw [if_neg (by omega)]
    rfl
  · rintro z hz rfl n1 n2 n3 hs
    obtain ⟨sz, lo, hi, h1, -⟩ := sizeArg_normal env z hz "uint"
    rw [h1, ← hs.eq]
    dsimp only
    split <;> first | contradiction | rfl

/-- The size argument asks for no size at all. -/
def SizeArg.Empty (z : SizeArg) : Prop := ∀ k, ¬ z.Allows k

/-- All allowed sizes are larger. -/
def SizeArg.Above (z : SizeArg) (k : Nat) : Prop := ∀ j, z.Allows j → k < j

/-- C59.  `.size` on text: other data; text that is too short; text that is too long.  An empty range says "over" for all
data. -/
theorem C59_size_tstr (env : Env) (c : Ctx) (t a : Node) (z : SizeArg) (v : Value)
    (ht : Names env c t (.prelude .tstr)) (ha : Names env c a z.node) (hz : z.Small) :
    (z.Empty → validate env v (.ctl .size t a) c = .err (.mismatch "tstr over .size limit")) ∧
    (¬ z.Empty → (∀ x, v ≠ .text x) → validate env v (.ctl .size t a) c = .err (.mismatch "tstr")) ∧
    (¬ z.Empty → ∀ x, v = .text x → z.Above x.toUTF8.size →
      validate env v (.ctl .size t a) c = .err (.mismatch "tstr under .size limit")) ∧
    (¬ z.Empty → ∀ x, v = .text x → ¬ z.Above x.toUTF8.size → ¬ z.Allows x.toUTF8.size →
      validate env v (.ctl .size t a) c = .err (.mismatch "tstr over .size limit")) := by
  obtain ⟨sz, lo, hi, h1, h2, h3⟩ := sizeArg_normal env z hz "tstr"
  unfold validate
  rw [val_eq]
  simp only [valBody, validateControl, validateControlSize, ht.chase, ha.chase, Res.bind, h1,
    validateSizeTstr, h2]
  by_cases hlt : lo > hi ∨ lo = hi ∧ sz.2.2 = false
  · have he : z.Empty := (size_empty h3).mpr hlt
    simp [hlt, he]
  · have he : ¬ z.Empty := fun h => hlt ((size_empty h3).mp h)
    rw [if_neg hlt]
    refine ⟨fun h => absurd h he, fun _ h => ?_, ?_, ?_⟩
    · cases v <;> first | rfl | exact absurd rfl (h _)
    · rintro _ x rfl h
      dsimp only
      have : x.utf8ByteSize < lo := (size_above h3 hlt).mp h
      rw [if_pos this]
    · rintro _ x rfl h h'
      dsimp only
      have h4 : ¬ x.utf8ByteSize < lo := fun h5 => h ((size_above h3 hlt).mpr h5)
      rw [if_neg h4]
      have h5 := (not_congr (h3 x.utf8ByteSize)).mp h'
      cases hs : sz.2.2 <;> simp [hs] at h5 ⊢ <;> omega

/-- C59.  `.size` on byte strings. -/
theorem C59_size_bstr (env : Env) (c : Ctx) (t a : Node) (z : SizeArg) (v : Value)
    (ht : Names env c t (.prelude .bstr)) (ha : Names env c a z.node) (hz : z.Small) :
    (z.Empty → validate env v (.ctl .size t a) c = .err (.mismatch "bstr over .size limit")) ∧
    (¬ z.Empty → (∀ x, v ≠ .bytes x) → validate env v (.ctl .size t a) c = .err (.mismatch "bstr")) ∧
    (¬ z.Empty → ∀ x, v = .bytes x → z.Above x.length →
      validate env v (.ctl .size t a) c = .err (.mismatch "bstr under .size limit")) ∧
    (¬ z.Empty → ∀ x, v = .bytes x → ¬ z.Above x.length → ¬ z.Allows x.length →
      validate env v (.ctl .size t a) c = .err (.mismatch "bstr over .size limit")) := by
  obtain ⟨sz, lo, hi, h1, h2, h3⟩ := sizeArg_normal env z hz "bstr"
  unfold validate
  rw [val_eq]
  simp only [valBody, validateControl, validateControlSize, ht.chase, ha.chase, Res.bind, h1,
    validateSizeBstr, h2]
  by_cases hlt : lo > hi ∨ lo = hi ∧ sz.2.2 = false
  · have he : z.Empty := (size_empty h3).mpr hlt
    simp [hlt, he]
  · have he : ¬ z.Empty := fun h => hlt ((size_empty h3).mp h)
    rw [if_neg hlt]
    refine ⟨fun h => absurd h he, fun _ h => ?_, ?_, ?_⟩
    · cases v <;> first | rfl | exact absurd rfl (h _)
    · rintro _ x rfl h
      dsimp only
      rw [if_pos ((size_above h3 hlt).mp h)]
    · rintro _ x rfl h h'
      dsimp only
      have h4 : ¬ x.length < lo := fun h5 => h ((size_above h3 hlt).mpr h5)
      rw [if_neg h4]
      have h5 := (not_congr (h3 x.length)).mp h'
      cases hs : sz.2.2 <;> simp [hs] at h5 ⊢ <;> omega

/-- C59.  `.size` on unsigned integers. -/
theorem C59_size_uint (env : Env) (c : Ctx) (t a : Node) (z : SizeArg) (v : Value)
    (ht : Names env c t (.prelude .uint)) (ha : Names env c a z.node) (hz : z.Small) (hne : ¬ z.Empty) :
    ((∀ x, v ≠ .integer x) → validate env v (.ctl .size t a) c = .err (.mismatch "uint")) ∧
    (∀ x, v = .integer x → x < 0 → validate env v (.ctl .size t a) c = .err (.mismatch ".size on negative integer")) := by
  obtain ⟨sz, lo, hi, h1, h2, h3⟩ := sizeArg_normal env z hz "uint"
  unfold validate
  rw [val_eq]
  simp only [valBody, validateControl, validateControlSize, ht.chase, ha.chase, Res.bind, h1,
    validateSizeUint, h2]
  have hlt : ¬ (lo > hi ∨ lo = hi ∧ sz.2.2 = false) := fun h => hne ((size_empty h3).mpr h)
  rw [if_neg hlt]
  constructor
  · intro h; cases v <;> first | rfl | exact absurd rfl (h _)
  · rintro x rfl h; simp [h]

/-- C59.  `.size N` on an unsigned integer that needs more than `N` bytes. -/
theorem C59_size_uint_over (env : Env) (c : Ctx) (t a : Node) (N x : Nat)
    (ht : Names env c t (.prelude .uint)) (ha : Names env c a (.literal (.int N))) (hN : N < 2 ^ 64)
    (hx : x < 2 ^ 127) (h : 256 ^ N ≤ x) :
    validate env (.integer x) (.ctl .size t a) c = .err (.mismatch "uint over .size limit") := by
  unfold validate
  rw [val_eq]
  have hu := toU64_nat hN
  simp only [valBody, validateControl, validateControlSize, ht.chase, ha.chase, Res.bind,
    normalizeSizeRange, hu, validateSizeUint, sizeEndpoints]
  have h16 : ¬ 16 ≤ N := by
    intro h16
    have h1 : 256 ^ 16 ≤ 256 ^ N := Nat.pow_le_pow_right (by omega) h16
    have h2 : 2 ^ 127 ≤ 256 ^ 16 := by decide
    omega
  have h0 : ¬ (x : Int) < 0 := by omega
  have h1 : ¬ x < 256 ^ N := by omega
  simp only [gt_iff_lt, Nat.lt_irrefl, Bool.true_eq_false, and_false, or_self, if_false, h0, and_self, if_true, ge_iff_le, h16,
    shl1_bytes (Nat.lt_of_not_le h16), Res.bind, Int.ofNat_lt, h1]

/-- C59.  `.size (a..b)` and `.size (a...b)` on an unsigned integer whose shortest encoding has `k` bytes. -/
theorem C59_size_uint_range (env : Env) (c : Ctx) (t z : Node) (a b x k : Nat) (inclusive : Bool)
    (ht : Names env c t (.prelude .uint))
    (hz : Names env c z (.range (.literal (.int a)) (.literal (.int b)) inclusive)) (hb : b < 2 ^ 64) (hab : a < b)
    (hk : MinBytes x k) :
    (k < a → validate env (.integer x) (.ctl .size t z) c = .err (.mismatch "uint under .size limit")) ∧
    ((if inclusive then b < k else b ≤ k) →
      validate env (.integer x) (.ctl .size t z) c = .err (.mismatch "uint over .size limit")) := by
  unfold validate
  rw [val_eq]
  have hu := toU64_nat (Nat.lt_trans hab hb)
  have hu' := toU64_nat hb
  simp only [valBody, validateControl, validateControlSize, ht.chase, hz.chase, Res.bind,
    normalizeSizeRange, hu, hu', validateSizeUint, sizeEndpoints]
  have h1 : ¬ (a > b ∨ a = b ∧ inclusive = false) := by omega
  have h2 : ¬ (a = b ∧ inclusive = true) := by omega
  have h0 : ¬ (x : Int) < 0 := by omega
  simp only [h1, h2, h0, if_false, Int.toNat_natCast]
  have hm := minBytes_needed x
  generalize (if x = 0 then 0 else (Nat.log2 x + 1 + 7) / 8) = j at hm
  rw [hm.unique hk]
  constructor
  · intro h; rw [if_pos h]
  · intro h
    have : ¬ k < a := by cases inclusive <;> simp at h <;> omega
    rw [if_neg this]
    cases inclusive <;> simp at h ⊢ <;> omega

/-- C59.  `bstr .cbor t` on data that is no byte string. -/
theorem C59_cbor (env : Env) (c : Ctx) (n : Node) (v : Value) (h : ∀ b, v ≠ .bytes b) :
    validate env v (.ctlCbor n) c = .err (.mismatch "Bytes") := by
  unfold validate
  rw [val_eq]
  cases v <;> first | rfl | exact absurd rfl (h _)

/-- C59.  `&(…)` when no member accepts the data: the message is the number of members. -/
theorem C59_choiceify (env : Env) (c : Ctx) (ms : List Node) (v : Value)
    (h : ∀ m ∈ ms, (∃ k t cut s, m = .keyValue k t cut ∧ validate env v t c = .err (.mismatch s)) ∨
      (∀ k t cut, m ≠ .keyValue k t cut) ∧ (∀ s as, m ≠ .rule s as) ∧ ∃ s, validate env v m c = .err (.mismatch s)) :
    validate env v (.choiceifyInline ms) c = .err (.mismatch ("choiceified group of " ++ toString ms.length)) := by
  unfold validate at h ⊢
  rw [val_eq]
  simp only [valBody, validateChoiceifyMembers]
  generalize "choiceified group of " ++ toString ms.length = msg
  induction ms with
  | nil => rfl
  | cons m ms ih =>
    have hm : ∃ s, choiceifyItem (lim env) v c m = .err (.mismatch s) := by
      rcases h m (by simp) with ⟨k, t, cut, s, rfl, h3⟩ | ⟨h1, h2, s, h3⟩
      · exact ⟨s, h3⟩
      · refine ⟨s, ?_⟩
        cases m <;> first | exact h3 | exact absurd rfl (h1 _ _ _) | exact absurd rfl (h2 _ _)
    obtain ⟨s, hs⟩ := hm
    simp only [choiceLoop, hs, Err.isFatal, Bool.false_eq_true, if_false]
    exact ih fun n hn => h n (by simp [hn])

theorem toString_dec (n : Nat) : (toString n).toList = decText n := by
  show (Nat.repr n).toList = _
  rw [Nat.repr, String.toList_ofList]
  induction n using Nat.strongRecOn with
  | _ n ih =>
    rw [decText, Nat.toDigits_eq_if (by decide)]
    split
    · rfl
    · rw [ih (n / 10) (by omega)]

/-- C59.  An occurrence is written by its sign, which the parser reads as that occurrence, and the entry. -/
theorem C59_sign (fmt : F64 → String) (o : OccurLimit) (n : Node) (s : String) (hs : Shows fmt n s)
    (ho : ∀ a b, o = .numbered a b → a < 2 ^ 64 ∧ b < 2 ^ 64) :
    ∃ g, OccurText g.toList o ∧ occurDisplay fmt o n = g ++ " " ++ s := by
  refine ⟨o.symbol, ?_, by rw [occurDisplay, hs.eq]⟩
  cases o with
  | optional => exact .optional
  | zeroOrMore => exact .star
  | oneOrMore => exact .plus
  | numbered a b =>
    obtain ⟨ha, hb⟩ := ho a b rfl
    have e1 := toString_dec a
    have e2 := toString_dec b
    simp only [OccurLimit.symbol]
    split
    · rename_i h
      obtain ⟨rfl, rfl⟩ := h
      exact OccurText.lower .zero (by decide)
    · rw [String.toList_append, String.toList_append, e1, e2]
      have := OccurText.both (decText_spec a) ha (decText_spec b) hb
      simpa using this
/-! ## Examples -/

example : occurDisplay (demoEnv []).fmtF64 (.numbered 2 10) (.prelude .tstr) = "2*10 Tstr" ∧
    ∃ g, OccurText g.toList (.numbered 2 10) ∧ occurDisplay (demoEnv []).fmtF64 (.numbered 2 10) (.prelude .tstr) = g ++ " " ++ "Tstr" :=
  ⟨by decide, C59_sign _ _ _ _ .tstr (by rintro a b ⟨⟩; decide)⟩

example : validate (demoEnv []) (.integer (-1)) (.prelude .uint) top = .err (.mismatch "uint") :=
  C59_type _ _ .uint _ (by simp [InPrelude])
example : validate (demoEnv []) .null (.literal (.text "on")) top = .err (.mismatch "\"on\"") :=
  C59_literal _ _ _ _ _ (by simp [Denotes]) (.text "on")
example : validate (demoEnv []) (.integer 4) (.range (.literal (.int 1)) (.literal (.int 4)) false) top =
    .err (.mismatch "1...4") :=
  C59_range _ _ _ _ (.int 1) (.int 4) _ _ _ _ (.literal _ _) (.literal _ _) rfl (.int 1) (.int 4) (by
    rw [(C08_int_range _ _ _ _ 1 4 _ _ (.literal _ _) (.literal _ _)).1]
    rintro ⟨x, hx, -, h⟩
    cases hx
    revert h
    decide)
/-- An end given by a name is written as `Rule`. -/
example : validate (demoEnv [("max", ⟨[], .literal (.int 4)⟩)]) .null (.range (.literal (.int 1)) (.rule "max" []) true) top =
    .err (.mismatch "1..Rule") :=
  C59_range _ _ _ _ (.int 1) (.int 4) _ _ _ _ (.literal _ _)
    (.rule (c' := .frame [] top 1) (n := .literal (.int 4)) rfl (.literal _ _)) rfl (.int 1) (.rule _ _) (by
    rw [(C08_int_range _ _ _ _ 1 4 _ _ (.literal _ _)
      (.rule (c' := .frame [] top 1) (n := .literal (.int 4)) rfl (.literal _ _))).1]
    rintro ⟨x, hx, -⟩
    cases hx)
example : validate (demoEnv []) .null (.choice [.prelude .int, .prelude .tstr]) top = .err (.mismatch "choice of 2") :=
  C59_choice _ _ [_, _] _ (by
    intro n hn
    simp only [List.mem_cons, List.not_mem_nil, or_false] at hn
    rcases hn with rfl | rfl
    · exact ⟨_, C59_type _ _ .int _ (by simp [InPrelude])⟩
    · exact ⟨_, C59_type _ _ .tstr _ (by simp [InPrelude])⟩)

/-- `[int, name: tstr, 1 / 2]`. -/
def c59Tuple : List Node :=
  [.prelude .int, .keyValue (.literal (.text "name")) (.prelude .tstr) true, .choice [.literal (.int 1), .literal (.int 2)]]

theorem c59_entries : All2 (Entry (demoEnv []) top) c59Tuple
    [.prelude .int, .prelude .tstr, .choice [.literal (.int 1), .literal (.int 2)]] :=
  .cons (.plain (.prelude _ _)) (.cons (.keyed _ _ _) (.cons (.plain (.choice (by
    intro n hn
    simp only [List.mem_cons, List.not_mem_nil, or_false] at hn
    rcases hn with rfl | rfl <;> exact .literal _ _))) .nil))

theorem c59_int : Accepts (demoEnv []) top (.prelude .int) (.integer 7) := accepts_of_fuel 60 (by decide)
theorem c59_tstr : Accepts (demoEnv []) top (.prelude .tstr) (.text "x") := accepts_of_fuel 60 (by decide)

/-- The array is too short, at an entry with a key. -/
example : validate (demoEnv []) (.array [.integer 7]) (.array c59Tuple) top = .err (.mismatch "array element Tstr") :=
  (C59_tuple _ _ _ _ _ _ c59_entries).mpr (.step (.plain (.prelude _ _)) c59_int (.lack (.keyed _ _ .tstr)))
/-- The array is too short, at a choice. -/
example : validate (demoEnv []) (.array [.integer 7, .text "x"]) (.array c59Tuple) top = .err (.mismatch "choice of 2") :=
  (C59_tuple _ _ _ _ _ _ c59_entries).mpr (.step (.plain (.prelude _ _)) c59_int (.step (.keyed _ _ _) c59_tstr
    (.lack (.choice (fun n => "array element " ++ n.display fun _ => "f") (by
      intro n hn
      simp only [List.mem_cons, List.not_mem_nil, or_false] at hn
      rcases hn with rfl | rfl <;> exact .one (.literal _ _) nofun nofun (.int _))))))
/-- An element does not fit. -/
example : validate (demoEnv []) (.array [.integer 7, .null, .null]) (.array c59Tuple) top = .err (.mismatch "tstr") :=
  (C59_tuple _ _ _ _ _ _ c59_entries).mpr (.step (.plain (.prelude _ _)) c59_int (.wrong (.keyed _ _ _)
    (C59_type _ _ .tstr _ (by simp [InPrelude])) (by simp)))
/-- The array is too long. -/
example : validate (demoEnv []) (.array [.integer 7, .text "x", .integer 2, .null]) (.array c59Tuple) top =
    .err (.mismatch "shorter array") :=
  (C59_tuple _ _ _ _ _ _ c59_entries).mpr (.step (.plain (.prelude _ _)) c59_int (.step (.keyed _ _ _) c59_tstr
    (.step (.plain (.choice (by
      intro n hn
      simp only [List.mem_cons, List.not_mem_nil, or_false] at hn
      rcases hn with rfl | rfl <;> exact .literal _ _))) (accepts_of_fuel 60 (by decide)) (.more _ _))))

/-- `{name: tstr, ? "age" => uint, ? 7: nil}`, with no cut at `age`. -/
example : validate (demoEnv []) (.map [(.text "age", .text "x"), (.text "name", .text "x")])
    (.map (personFields.map Field.node)) top = .err (.mismatch "shorter map") :=
  (C59_record _ _ personFields [(.text "age", .text "x"), (.text "name", .text "x")] _ (fun s m => RuleTable.lookup_notCut [] s m) ⟨⟨by decide, trivial⟩, trivial, trivial, trivial, trivial, trivial⟩).mpr
    (.take (v := .text "x") (by simp [Literal.toValue]) c59_tstr (.leave (v := .text "x") rfl rfl (by simp [Literal.toValue])
      (C59_type _ _ .uint _ (by simp [InPrelude])) (.skip rfl (by simp [Literal.toValue])
        (by
          rw [show (List.filter _ _ : VMap) = [(.text "age", .text "x")] from by decide]
          exact .more _ _))))
/-- The same with the cut that `age: uint` has. -/
example : validate (demoEnv []) (.map [(.text "age", .text "x")])
    (.map (([⟨.text "age", .prelude .uint, true, true⟩] : List Field).map Field.node)) top = .err (.mismatch "uint") :=
  (C59_record _ _ [⟨.text "age", .prelude .uint, true, true⟩] [(.text "age", .text "x")] _ (fun s m => RuleTable.lookup_notCut [] s m) ⟨trivial, trivial, trivial, trivial⟩).mpr
    (.wrong (v := .text "x") (.inr (.inl rfl)) (by simp [Literal.toValue]) (C59_type _ _ .uint _ (by simp [InPrelude])) (by simp))
/-- A missing key. -/
example : validate (demoEnv []) (.map []) (.map (personFields.map Field.node)) top = .err (.mismatch "map{\"name\"}") :=
  (C59_record _ _ personFields [] _ (fun s m => RuleTable.lookup_notCut [] s m) ⟨trivial, trivial⟩).mpr
    (.missing (f := ⟨.text "name", .prelude .tstr, false, true⟩) rfl (fun _ => List.not_mem_nil) (.text "name"))

example : validate (demoEnv []) .null (.array [.prelude .int]) top = .err (.mismatch "array") :=
  (C59_container _ _ _ _).1 nofun

/-- `[3* int]` says what it asks for, with the largest `usize` as the upper limit. -/
example : validate (demoEnv []) (.array [.integer 7]) (.array [.occur (.numbered 3 18446744073709551615) (.prelude .int)]) top =
    .err (.mismatch "more array element [3*18446744073709551615 Int]") :=
  C59_too_few _ _ _ 3 18446744073709551615 _ _ _ [.integer 7] [] _ _ (.plain (.prelude _ _)) (.numbers 3 _ (by omega)) .intType
    (by simpa using c59_int) (by decide) (by decide) nofun
example : validate (demoEnv []) (.array [.null]) (.array [.occur .oneOrMore (.prelude .int)]) top =
    .err (.mismatch "more array element [+ Int]") :=
  C59_too_few _ _ _ 1 18446744073709551615 _ _ _ [] [.null] _ _ (.plain (.prelude _ _)) .plus .intType
    nofun (by decide) (by decide) (by
      rintro z zs h
      cases h
      exact ⟨_, C59_type _ _ .int _ (by simp [InPrelude])⟩)

example : validate (demoEnv []) (.map [(.integer 1, .null)]) (.map [.keyValue (.prelude .tstr) (.prelude .int) false]) top =
    .err (.mismatch "map{Tstr}") :=
  C59_no_key _ _ (.prelude .tstr) _ _ _ [(.integer 1, .null)] _ nofun .tstr (by
    intro p hp
    rw [List.mem_singleton] at hp
    subst hp
    exact ⟨_, C59_type _ _ .tstr _ (by simp [InPrelude])⟩)
example : validate (demoEnv []) (.map []) (.map [.occur .oneOrMore (.keyValue (.prelude .tstr) (.prelude .int) false)]) top =
    .err (.mismatch "map{+ Tstr: Int}]") :=
  C59_no_pair _ _ _ 1 18446744073709551615 _ _ _ _ _ _ _ .plus (.keyValue _ .tstr .intType) nofun nofun

/-- `-1 .gt 5` says "over" and `.ge`, though it is under the limit of `.gt`. -/
example : validate (demoEnv []) (.integer (-1)) (.ctl .gt (.prelude .int) (.literal (.int 5))) top =
    .err (.mismatch "int over .ge limit") :=
  (C59_control _ _ .gt _ _ .int 5 _ (by simp) (.here _ _ (by simp)) (by simp) (.here _ _ (by simp))).2 (by simp [InPrelude]) (by
    rw [(C09_integer_controls _ _ .gt _ _ .int 5 _ (by simp) (.here _ _ (by simp)) (by simp) (.here _ _ (by simp))).1]
    rintro ⟨x, hx, -, h⟩
    cases hx
    simp [Compares] at h)
example : validate (demoEnv []) .null (.ctl .lt (.prelude .float) (.literal (.int 5))) top =
    .err (.structural ".lt for float is not supported yet") :=
  (C59_bad_control _ _ .lt _ _ _ _ _ "" (by simp) (.here _ _ (by simp)) (.here _ _ (by simp))).2.1 5 rfl rfl
example : validate (demoEnv []) .null (.ctl .ge (.prelude .tstr) (.literal (.int 5))) top =
    .err (.structural "bad .ge target type (Tstr)") :=
  (C59_bad_control _ _ .ge _ _ _ _ _ "Tstr" (by simp) (.here _ _ (by simp)) (.here _ _ (by simp))).2.2 5 rfl (by simp) (by simp) (by simp)
    (by simp) .tstr
example : validate (demoEnv []) .null (.ctl .size (.prelude .int) (.literal (.int 5))) top =
    .err (.structural "bad .size target type (Int)") :=
  (C59_bad_size _ _ _ _ _ _ _ "Int" (.here _ _ (by simp)) (.here _ _ (by simp))).2.2 (.exactly 5) (show 5 < 2 ^ 64 by decide) rfl (by simp) (by simp) (by simp)
    .intType
example : validate (demoEnv []) (.text "ab") (.ctl .size (.prelude .tstr) (.literal (.int 3))) top =
    .err (.mismatch "tstr under .size limit") :=
  (C59_size_tstr _ _ _ _ (.exactly 3) _ (.here _ _ (by simp)) (.here _ _ (by simp [SizeArg.node])) (show 3 < 2 ^ 64 by decide)).2.2.1 (fun h => h 3 rfl) "ab" rfl (by
    intro j hj
    cases hj
    decide)
example : validate (demoEnv []) (.integer 256) (.ctl .size (.prelude .uint) (.literal (.int 1))) top =
    .err (.mismatch "uint over .size limit") :=
  C59_size_uint_over _ _ _ _ 1 256 (.here _ _ (by simp)) (.here _ _ (by simp)) (by decide) (by decide) (by decide)
example : validate (demoEnv []) (.text "x") (.ctlCbor (.prelude .int)) top = .err (.mismatch "Bytes") :=
  C59_cbor _ _ _ _ nofun
example : validate (demoEnv []) .null (.choiceifyInline [.keyValue (.literal (.text "a")) (.literal (.int 1)) true, .prelude .tstr]) top =
    .err (.mismatch "choiceified group of 2") :=
  C59_choiceify _ _ [_, _] _ (by
    intro m hm
    simp only [List.mem_cons, List.not_mem_nil, or_false] at hm
    rcases hm with rfl | rfl
    · exact .inl ⟨_, _, _, _, rfl, C59_literal _ _ _ _ _ (by simp [Denotes]) (.int 1)⟩
    · exact .inr ⟨nofun, nofun, _, C59_type _ _ .tstr _ (by simp [InPrelude])⟩)

end Cddl
