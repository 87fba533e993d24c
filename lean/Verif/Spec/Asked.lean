import Verif.Spec.Akin

/-! # What the libraries are asked -/

namespace Cddl

/-- The data met on the way through `v`: its parts, and with `cbor` also what its byte strings decode to. -/
inductive Met (dec : List UInt8 → Except String Cbor) (cbor : Prop) (v : Value) : Value → Prop
  | self : Met dec cbor v v
  | elem {xs : List Value} {x : Value} : Met dec cbor v (.array xs) → x ∈ xs → Met dec cbor v x
  | key {m : VMap} {p : Value × Value} : Met dec cbor v (.map m) → p ∈ m → Met dec cbor v p.1
  | value {m : VMap} {p : Value × Value} : Met dec cbor v (.map m) → p ∈ m → Met dec cbor v p.2
  | decoded {b : List UInt8} {c : Cbor} {w : Value} : cbor → Met dec cbor v (.bytes b) → dec b = .ok c → c.toValue = .ok w →
      Met dec cbor v w

/-- The same rules with other libraries for patterns and for CBOR. -/
def Env.using (env : Env) (rx : String → String → Bool) (dec : List UInt8 → Except String Cbor) : Env :=
  { env with regexMatch := rx, cborDecode := dec }

end Cddl
