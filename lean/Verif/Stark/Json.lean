import Verif.Stark.AcceptSpec
import Verif.U256.Encoding

/-!
# Specification: JSON, and a proof as a JSON object

The part of JSON (RFC 8259) with strings without escapes, arrays and objects.
-/

namespace OpenZKP
namespace Json

/-- a JSON value -/
inductive Value where
  | str (s : List Char)
  | arr (l : List Value)
  | obj (l : List (List Char × Value))

/-- white space -/
def Blank (w : List Char) : Prop := ∀ c ∈ w, c = ' ' ∨ c = '\n' ∨ c = '\r' ∨ c = '\t'

/-- a string in quotes that needs no escapes -/
def Quoted (s t : List Char) : Prop := (∀ c ∈ s, c ≠ '"' ∧ c ≠ '\\' ∧ 0x20 ≤ c.toNat) ∧ t = ('"' :: s) ++ ['"']

mutual
/-- `t` is a text for the value -/
inductive Text : Value → List Char → Prop
  | str {s t} : Quoted s t → Text (.str s) t
  | none {w} : Blank w → Text (.arr []) (('[' :: w) ++ [']'])
  | arr {l t} : Elements l t → Text (.arr l) (('[' :: t) ++ [']'])
  | empty {w} : Blank w → Text (.obj []) (('{' :: w) ++ ['}'])
  | obj {l t} : Members l t → Text (.obj l) (('{' :: t) ++ ['}'])
/-- values separated by commas -/
inductive Elements : List Value → List Char → Prop
  | one {v w t w'} : Blank w → Text v t → Blank w' → Elements [v] (w ++ (t ++ w'))
  | cons {v w t w' l ts} : Blank w → Text v t → Blank w' → Elements l ts → Elements (v :: l) (w ++ (t ++ (w' ++ ',' :: ts)))
/-- members separated by commas -/
inductive Members : List (List Char × Value) → List Char → Prop
  | one {n v w q w1 w2 t w'} : Blank w → Quoted n q → Blank w1 → Blank w2 → Text v t → Blank w' →
      Members [(n, v)] (w ++ (q ++ (w1 ++ ':' :: (w2 ++ (t ++ w')))))
  | cons {n v w q w1 w2 t w' l ts} : Blank w → Quoted n q → Blank w1 → Blank w2 → Text v t → Blank w' → Members l ts →
      Members ((n, v) :: l) (w ++ (q ++ (w1 ++ ':' :: (w2 ++ (t ++ (w' ++ ',' :: ts))))))
end

/-- bytes in hexadecimal -/
def bytes (b : List UInt8) : Value := .str ('0' :: 'x' :: U256.hexEncode b)

end Json

namespace Stark
namespace Accept
open U256

section
variable {F : Type} [Field F] [DecidableEq F] (env : Env F)

/-- a word of a proof: the representation of the field element it stands for -/
def wordJson (u : U256) : Json.Value := Json.bytes (to_bytes_be (env.codec.rep (env.codec.val u)))

/-- a proof as a JSON object -/
def proofJson (P : Contents) : Json.Value := .obj [
  ("trace_commitment".toList, Json.bytes P.trace_root),
  ("constraint_commitment".toList, Json.bytes P.constraint_root),
  ("trace_oods_values".toList, .arr (P.trace_values.map (wordJson env))),
  ("constraint_oods_values".toList, .arr (P.constraint_values.map (wordJson env))),
  ("fri_commitments".toList, .arr (P.fri.map fun l => Json.bytes l.root)),
  ("last_layer_coefficients".toList, .arr (P.last_layer.map (wordJson env))),
  ("pow_nonce".toList, Json.bytes (to_be_bytes 8 P.nonce)),
  ("trace_values".toList, .arr (P.trace_rows.flatten.map (wordJson env))),
  ("trace_decommitment".toList, .arr (P.trace_hashes.map Json.bytes)),
  ("constraint_values".toList, .arr (P.constraint_rows.flatten.map (wordJson env))),
  ("constraint_decommitment".toList, .arr (P.constraint_hashes.map Json.bytes)),
  ("fri_values".toList, .arr (P.fri.map fun l => .arr (l.values.map (wordJson env)))),
  ("fri_decommitments".toList, .arr (P.fri.map fun l => .arr (l.hashes.map Json.bytes)))]

end

/-- the arrays of a proof, but for those of the layers of FRI -/
structure Contents.Filled (P : Contents) : Prop where
  trace_values : P.trace_values ≠ []
  constraint_values : P.constraint_values ≠ []
  fri : P.fri ≠ []
  last_layer : P.last_layer ≠ []
  trace_rows : P.trace_rows.flatten ≠ []
  trace_hashes : P.trace_hashes ≠ []
  constraint_rows : P.constraint_rows.flatten ≠ []
  constraint_hashes : P.constraint_hashes ≠ []

/-- those of the layers of FRI -/
def Contents.LayersFilled (P : Contents) : Prop := ∀ l ∈ P.fri, l.values ≠ [] ∧ l.hashes ≠ []

end Accept
end Stark
end OpenZKP
