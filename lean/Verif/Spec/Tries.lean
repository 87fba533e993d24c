import Verif.Spec.Reads

/-! # Trying entries on data that is used up

Arrays and maps read as by `ReadsArray` and `ReadsMap`, except that an entry uses up the data also where it fails in the end.
A group notes what its own entries take, and gives that back if it fails; what was taken by a group inside it that did not fail is
not among its notes, and lost.  Choices, repetitions and `~` give nothing back. -/

namespace Cddl

/-- How an entry ends, and what is left if it took something. -/
def Out.leaving {σ : Type} : Out Unit → σ → Out σ
  | .took _, y => .took y
  | .no, _ => .no
  | .cut, _ => .cut
  | .stop e, _ => .stop e

/-- What a member of a group stands for behind `&`. -/
def Node.asOption : Node → Node
  | .keyValue _ v _ => v
  | .rule s as => .choiceify s as
  | n => n

mutual
/-- `TriesOne env simple single body back c n x o y l`: the entry `n` tried on the data `x` ends as `o`, leaves the data `y`, and
`l` is noted by the group around it.  `simple` says which entries take one thing, and `single` what they do; `body` gives the
entries of a type behind `~`; `back l y z` says that `z` is `y` with `l` given back. -/
inductive TriesOne {σ τ : Type} (env : Env) (simple : Node → Bool) (single : Ctx → Node → σ → Out Unit → σ → List τ → Prop)
    (body : Node → Option (List Node)) (back : List τ → σ → σ → Prop) : Ctx → Node → σ → Out Unit → σ → List τ → Prop
  | single {c n x o y l} : simple n = true → single c n x o y l → TriesOne env simple single body back c n x o y l
  | rule {c s as n c' x o y l} : c.lookupRule env s as = .ok (n, c') → TriesOne env simple single body back c' n x o y l →
      TriesOne env simple single body back c (.rule s as) x o y l
  | noRule {c s as e} (x) : c.lookupRule env s as = .error e →
      TriesOne env simple single body back c (.rule s as) x (.ofErr e) x []
  | unwrap {c s as n ms c' x o y l} : c.lookupRule env s as = .ok (n, c') → body n = some ms →
      TriesAll env simple single body back c' ms x o y l → TriesOne env simple single body back c (.unwrap s as) x o y l
  | unwrapOther {c s as n c'} (x) : c.lookupRule env s as = .ok (n, c') → body n = none →
      TriesOne env simple single body back c (.unwrap s as) x .no x []
  | noUnwrap {c s as e} (x) : c.lookupRule env s as = .error e →
      TriesOne env simple single body back c (.unwrap s as) x (.ofErr e) x []
  | choice {c ns x o y l} : TriesFirst env simple single body back c ns x o y l →
      TriesOne env simple single body back c (.choice ns) x o y l
  /-- a group that did not fail forgets its notes -/
  | group {c ns x y l} : TriesAll env simple single body back c ns x (.took ()) y l →
      TriesOne env simple single body back c (.group ns) x (.took ()) y []
  /-- a group that failed gives back what it has noted -/
  | groupFails {c ns x o y l z} : TriesAll env simple single body back c ns x o y l → o.failed = true → back l y z →
      TriesOne env simple single body back c (.group ns) x o.ofGroup z []
  | occur {c n r x o y l} : TriesMany env simple single body back c n r.limits.1 r.limits.2 x o y l →
      TriesOne env simple single body back c (.occur r n) x o y l
  /-- `&g` -/
  | options {c s as ns c' x o y l} : simple (.choiceify s as) = false → c.lookupRule env s as = .ok (.group ns, c') →
      TriesFirst env simple single body back c' (ns.map Node.asOption) x o y l →
      TriesOne env simple single body back c (.choiceify s as) x o y l
  /-- `&g` where `g = h` -/
  | optionsName {c s as s' as' c' x o y l} : simple (.choiceify s as) = false →
      c.lookupRule env s as = .ok (.rule s' as', c') → TriesOne env simple single body back c' (.choiceify s' as') x o y l →
      TriesOne env simple single body back c (.choiceify s as) x o y l
  | optionsOther {c s as n c'} (x) : simple (.choiceify s as) = false → c.lookupRule env s as = .ok (n, c') →
      (∀ ns, n ≠ .group ns) → (∀ s as, n ≠ .rule s as) →
      TriesOne env simple single body back c (.choiceify s as) x (.stop (.structural "improper map choiceify target")) x []
  | noOptions {c s as e} (x) : simple (.choiceify s as) = false → c.lookupRule env s as = .error e →
      TriesOne env simple single body back c (.choiceify s as) x (.ofErr e) x []
  /-- `&( )`, whose members are tried as they are -/
  | inline {c ns x o y l} : simple (.choiceifyInline ns) = false → TriesFirst env simple single body back c ns x o y l →
      TriesOne env simple single body back c (.choiceifyInline ns) x o y l
/-- Entries one after the other. -/
inductive TriesAll {σ τ : Type} (env : Env) (simple : Node → Bool) (single : Ctx → Node → σ → Out Unit → σ → List τ → Prop)
    (body : Node → Option (List Node)) (back : List τ → σ → σ → Prop) : Ctx → List Node → σ → Out Unit → σ → List τ → Prop
  | nil (c x) : TriesAll env simple single body back c [] x (.took ()) x []
  | cons {c n ns x y l o z l'} : TriesOne env simple single body back c n x (.took ()) y l →
      TriesAll env simple single body back c ns y o z l' → TriesAll env simple single body back c (n :: ns) x o z (l ++ l')
  | fails {c n x o y l} (ns) : TriesOne env simple single body back c n x o y l → o.failed = true →
      TriesAll env simple single body back c (n :: ns) x o y l
/-- The first option that takes something of what those before it have left. -/
inductive TriesFirst {σ τ : Type} (env : Env) (simple : Node → Bool) (single : Ctx → Node → σ → Out Unit → σ → List τ → Prop)
    (body : Node → Option (List Node)) (back : List τ → σ → σ → Prop) : Ctx → List Node → σ → Out Unit → σ → List τ → Prop
  | nil (c x) : TriesFirst env simple single body back c [] x .no x []
  | first {c n x y l} (ns) : TriesOne env simple single body back c n x (.took ()) y l →
      TriesFirst env simple single body back c (n :: ns) x (.took ()) y l
  | next {c n ns x y l o z l'} : TriesOne env simple single body back c n x .no y l →
      TriesFirst env simple single body back c ns y o z l' → TriesFirst env simple single body back c (n :: ns) x o z (l ++ l')
  | ends {c n x o y l} (ns) : TriesOne env simple single body back c n x o y l → o.ends = true →
      TriesFirst env simple single body back c (n :: ns) x o y l
/-- As often as it goes; `lo` times more are needed, `hi` times more are allowed. -/
inductive TriesMany {σ τ : Type} (env : Env) (simple : Node → Bool) (single : Ctx → Node → σ → Out Unit → σ → List τ → Prop)
    (body : Node → Option (List Node)) (back : List τ → σ → σ → Prop) :
    Ctx → Node → Nat → Nat → σ → Out Unit → σ → List τ → Prop
  | more {c n lo hi x y l o z l'} : TriesOne env simple single body back c n x (.took ()) y l → 1 < hi →
      TriesMany env simple single body back c n (lo - 1) (hi - 1) y o z l' →
      TriesMany env simple single body back c n lo hi x o z (l ++ l')
  | last {c n lo hi x y l} : TriesOne env simple single body back c n x (.took ()) y l → hi ≤ 1 → lo ≤ 1 →
      TriesMany env simple single body back c n lo hi x (.took ()) y l
  | lastShort {c n lo hi x y l} : TriesOne env simple single body back c n x (.took ()) y l → hi ≤ 1 → 1 < lo →
      TriesMany env simple single body back c n lo hi x .no y l
  /-- what the last attempt has used up is not there any more -/
  | enough {c n hi x y l} : TriesOne env simple single body back c n x .no y l →
      TriesMany env simple single body back c n 0 hi x (.took ()) y l
  | few {c n lo hi x y l} : TriesOne env simple single body back c n x .no y l → 0 < lo →
      TriesMany env simple single body back c n lo hi x .no y l
  | ends {c n x o y l} (lo hi) : TriesOne env simple single body back c n x o y l → o.ends = true →
      TriesMany env simple single body back c n lo hi x o y l
end

/-- A single entry of an array takes the first element, if that is of its type.  Keys do not matter. -/
inductive TriesElement (env : Env) : Ctx → Node → List Value → Out Unit → List Value → List Value → Prop
  | take {c n v} (xs) : validate env v n.entryOf c = .ok () → TriesElement env c n (v :: xs) (.took ()) xs [v]
  | refuse {c n v e} (xs) : validate env v n.entryOf c = .err e → TriesElement env c n (v :: xs) (.ofErr e) (v :: xs) []
  | none (c n) : TriesElement env c n [] .no [] []

/-- An entry of a map takes the first pair whose key is of its type, if the value is. -/
inductive TriesPair (env : Env) :
    Ctx → Node → List (Value × Value) → Out Unit → List (Value × Value) → List (Value × Value) → Prop
  | take {c k t x v pre} (cut post) : (∀ p ∈ pre, validate env p.1 k c ≠ .ok ()) → validate env x k c = .ok () →
      validate env v t c = .ok () →
      TriesPair env c (.keyValue k t cut) (pre ++ (x, v) :: post) (.took ()) (pre ++ post) [(x, v)]
  | refuse {c k t x v e pre} (cut post) : (∀ p ∈ pre, validate env p.1 k c ≠ .ok ()) → validate env x k c = .ok () →
      validate env v t c = .err e →
      TriesPair env c (.keyValue k t cut) (pre ++ (x, v) :: post) (.ofValue cut (.ofErr e)) (pre ++ (x, v) :: post) []
  | none {c k m} (t cut) : (∀ p ∈ m, validate env p.1 k c ≠ .ok ()) → TriesPair env c (.keyValue k t cut) m .no m []
  | misplaced {c n e} (m) : n.isNoPair = true → NoMapEntry env c n e → TriesPair env c n m (.stop e) m []

/-- Entries of maps that take one pair, or are none. -/
def Node.isPair (n : Node) : Bool := n.isNoPair || n matches .keyValue ..

/-- Pairs are given back to a map: it is in order again, and has them besides its own. -/
def PairsBack (l y z : List (Value × Value)) : Prop := VMap.Sorted z ∧ ∀ p, p ∈ z ↔ p ∈ y ∨ p ∈ l

/-- The entries of an array type tried on the elements of an array. -/
abbrev TriesArray (env : Env) : Ctx → List Node → List Value → Out Unit → List Value → List Value → Prop :=
  TriesAll env Node.isElement (TriesElement env) Node.arrayEntries fun l y z => z = l ++ y

/-- The entries of a map type tried on the pairs of a map. -/
abbrev TriesMap (env : Env) :
    Ctx → List Node → List (Value × Value) → Out Unit → List (Value × Value) → List (Value × Value) → Prop :=
  TriesAll env Node.isPair (TriesPair env) Node.mapEntries PairsBack

end Cddl
