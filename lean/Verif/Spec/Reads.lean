import Verif.Spec.Fault
import Verif.Spec.Takes

/-! # Reading arrays and maps from left to right

The entries of an array or a map read like a grammar in which options are tried in order and repetitions take as much as they
can (a parsing expression grammar), over data that is only passed along: what has been read by an entry that then fails is
there for the next, since nothing has been taken away. -/

namespace Cddl

/-- How an entry ends. -/
inductive Out (σ : Type)
  /-- it took something; this is left -/
  | took (rest : σ)
  /-- the data is not as described -/
  | no
  /-- the data is not as described behind a key with a cut -/
  | cut
  /-- an error of another kind -/
  | stop (e : Err)

namespace Out
variable {σ : Type}

/-- What an error of the validator says. -/
def ofErr : Err → Out σ
  | .mismatch _ => .no
  | .mapCut _ => .cut
  | e => .stop e

/-- Nothing was taken. -/
def failed : Out σ → Bool
  | .took _ => false
  | _ => true

/-- No other option is tried, and no repetition is ended by this. -/
def ends : Out σ → Bool
  | .took _ | .no => false
  | _ => true

/-- A cut only counts in the group where it is. -/
def ofGroup : Out σ → Out σ
  | .cut => .no
  | o => o

/-- A cut of the value behind a key. -/
def ofValue (cut : Bool) : Out σ → Out σ
  | .no => if cut then .cut else .no
  | o => o

/-- The result for the whole: nothing is wrong, and nothing is left. -/
def Says {α : Type} : Out (List α) → Res Unit → Prop
  | .took [], r => r = .ok ()
  | .stop e, r => r = .err e
  | _, r => ∃ m, r = .err (.mismatch m)

end Out

mutual
/-- `ReadsOne env single body c n x o`: read by the entry `n`, the data `x` ends as `o`.  `single` says this for entries that
take one thing, `body` gives the entries of a type behind `~`. -/
inductive ReadsOne {σ : Type} (env : Env) (single : Ctx → Node → σ → Out σ → Prop) (body : Node → Option (List Node)) :
    Ctx → Node → σ → Out σ → Prop
  | single {c n x o} : n.isElement = true → single c n x o → ReadsOne env single body c n x o
  | rule {c s as n c' x o} : c.lookupRule env s as = .ok (n, c') → ReadsOne env single body c' n x o →
      ReadsOne env single body c (.rule s as) x o
  | noRule {c s as e} (x) : c.lookupRule env s as = .error e → ReadsOne env single body c (.rule s as) x (.ofErr e)
  | unwrap {c s as n ms c' x o} : c.lookupRule env s as = .ok (n, c') → body n = some ms → ReadsAll env single body c' ms x o →
      ReadsOne env single body c (.unwrap s as) x o
  | unwrapOther {c s as n c'} (x) : c.lookupRule env s as = .ok (n, c') → body n = none →
      ReadsOne env single body c (.unwrap s as) x .no
  | noUnwrap {c s as e} (x) : c.lookupRule env s as = .error e → ReadsOne env single body c (.unwrap s as) x (.ofErr e)
  | choice {c ns x o} : ReadsFirst env single body c ns x o → ReadsOne env single body c (.choice ns) x o
  | group {c ns x o} : ReadsAll env single body c ns x o → ReadsOne env single body c (.group ns) x o.ofGroup
  | occur {c n l x o} : ReadsMany env single body c n l.limits.1 l.limits.2 x o → ReadsOne env single body c (.occur l n) x o
/-- Entries one after the other. -/
inductive ReadsAll {σ : Type} (env : Env) (single : Ctx → Node → σ → Out σ → Prop) (body : Node → Option (List Node)) :
    Ctx → List Node → σ → Out σ → Prop
  | nil (c x) : ReadsAll env single body c [] x (.took x)
  | cons {c n ns x y o} : ReadsOne env single body c n x (.took y) → ReadsAll env single body c ns y o →
      ReadsAll env single body c (n :: ns) x o
  | fails {c n x o} (ns) : ReadsOne env single body c n x o → o.failed = true → ReadsAll env single body c (n :: ns) x o
/-- The first option that takes the data. -/
inductive ReadsFirst {σ : Type} (env : Env) (single : Ctx → Node → σ → Out σ → Prop) (body : Node → Option (List Node)) :
    Ctx → List Node → σ → Out σ → Prop
  | nil (c x) : ReadsFirst env single body c [] x .no
  | first {c n x y} (ns) : ReadsOne env single body c n x (.took y) → ReadsFirst env single body c (n :: ns) x (.took y)
  | next {c n ns x o} : ReadsOne env single body c n x .no → ReadsFirst env single body c ns x o →
      ReadsFirst env single body c (n :: ns) x o
  | ends {c n x o} (ns) : ReadsOne env single body c n x o → o.ends = true → ReadsFirst env single body c (n :: ns) x o
/-- As often as it goes; `lo` times more are needed, `hi` times more are allowed.  (That the first time is not counted against
`hi = 0` is how the validator does it.) -/
inductive ReadsMany {σ : Type} (env : Env) (single : Ctx → Node → σ → Out σ → Prop) (body : Node → Option (List Node)) :
    Ctx → Node → Nat → Nat → σ → Out σ → Prop
  | more {c n lo hi x y o} : ReadsOne env single body c n x (.took y) → 1 < hi → ReadsMany env single body c n (lo - 1) (hi - 1) y o →
      ReadsMany env single body c n lo hi x o
  | last {c n lo hi x y} : ReadsOne env single body c n x (.took y) → hi ≤ 1 → lo ≤ 1 →
      ReadsMany env single body c n lo hi x (.took y)
  | lastShort {c n lo hi x y} : ReadsOne env single body c n x (.took y) → hi ≤ 1 → 1 < lo → ReadsMany env single body c n lo hi x .no
  | enough {c n hi x} : ReadsOne env single body c n x .no → ReadsMany env single body c n 0 hi x (.took x)
  | few {c n lo hi x} : ReadsOne env single body c n x .no → 0 < lo → ReadsMany env single body c n lo hi x .no
  | ends {c n x o} (lo hi) : ReadsOne env single body c n x o → o.ends = true → ReadsMany env single body c n lo hi x o
end

/-- A single entry of an array takes the first element, if that is of its type.  Keys do not matter. -/
inductive FirstElement (env : Env) : Ctx → Node → List Value → Out (List Value) → Prop
  | take {c n v} (xs) : validate env v n.entryOf c = .ok () → FirstElement env c n (v :: xs) (.took xs)
  | refuse {c n v e} (xs) : validate env v n.entryOf c = .err e → FirstElement env c n (v :: xs) (.ofErr e)
  | none (c n) : FirstElement env c n [] .no

/-- The entries of an array type. -/
def Node.arrayEntries : Node → Option (List Node)
  | .array ms => some ms
  | _ => none

/-- An entry of a map takes the first pair whose key is of its type, if the value is. -/
inductive FirstPair (env : Env) : Ctx → Node → List (Value × Value) → Out (List (Value × Value)) → Prop
  | take {c k t x v pre} (cut post) : (∀ p ∈ pre, validate env p.1 k c ≠ .ok ()) → validate env x k c = .ok () →
      validate env v t c = .ok () → FirstPair env c (.keyValue k t cut) (pre ++ (x, v) :: post) (.took (pre ++ post))
  | refuse {c k t x v e pre} (cut post) : (∀ p ∈ pre, validate env p.1 k c ≠ .ok ()) → validate env x k c = .ok () →
      validate env v t c = .err e → FirstPair env c (.keyValue k t cut) (pre ++ (x, v) :: post) (.ofValue cut (.ofErr e))
  | none {c k m} (t cut) : (∀ p ∈ m, validate env p.1 k c ≠ .ok ()) → FirstPair env c (.keyValue k t cut) m .no
  | misplaced {c n e} (m) : n.isNoPair = true → NoMapEntry env c n e → FirstPair env c n m (.stop e)

/-- The entries of a map type. -/
def Node.mapEntries : Node → Option (List Node)
  | .map ms => some ms
  | _ => none

/-- The elements of an array read by the entries of an array type. -/
abbrev ReadsArray (env : Env) : Ctx → List Node → List Value → Out (List Value) → Prop :=
  ReadsAll env (FirstElement env) Node.arrayEntries

/-- The pairs of a map read by the entries of a map type. -/
abbrev ReadsMap (env : Env) : Ctx → List Node → List (Value × Value) → Out (List (Value × Value)) → Prop :=
  ReadsAll env (FirstPair env) Node.mapEntries

end Cddl
