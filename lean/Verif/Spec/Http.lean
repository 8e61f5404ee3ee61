/-!
# HTTP headers: what oatpp core provides (contract) and the words of RFC 7230 / RFC 6455 used in the statements

oatpp core is not part of /repo. What the handshake uses of it is a parameter (`Core`) with a contract (`Core.Sound`); the theorems
hold for everything that keeps the contract.
-/

namespace OatWS.Http

/-- A string: its bytes. -/
abbrev Str := List UInt8

/-- The bytes of an ASCII string. -/
def ascii (s : String) : Str := s.toList.map fun c => UInt8.ofNat c.toNat

/-- Lower case, for ASCII letters. -/
def lower (c : UInt8) : UInt8 := if 65 ≤ c.toNat ∧ c.toNat ≤ 90 then UInt8.ofNat (c.toNat + 32) else c

/-- Equal up to ASCII case. -/
def Same (a b : Str) : Prop := a.map lower = b.map lower

instance (a b : Str) : Decidable (Same a b) := inferInstanceAs (Decidable (_ = _))

/-- Header fields: names (case-insensitive) and values. A name may occur several times. -/
abbrev Headers := List (Str × Str)

/-- The values of the fields with this name. -/
def values (h : Headers) (name : String) : List Str := (h.filter fun p => decide (Same p.1 (ascii name))).map Prod.snd

/-- External (oatpp core): `Headers` and `Parser::parseHeaderValueData`.

* `get h name`: `Headers::get` / `getAsMemoryLabel`, i.e. `find` in a `std::unordered_multimap` with case-insensitive keys: the standard
  does not say which one it finds if there are several.
* `tokens v`: the members of `HeaderValueData::tokens` after `parseHeaderValueData(_, v, ',')`. -/
structure Core where
  get : Headers → String → Option Str
  tokens : Str → List Str

/-- A list of tokens as written in a `Connection` header (RFC 7230, 6.1 and 7): separated by commas, each comma followed by any number of
spaces. `spaces k`: how many behind the `k`-th comma. -/
def tokenList (spaces : Nat → Nat) : List Str → Str
  | [] => []
  | [t] => t
  | t :: ts => t ++ [44] ++ List.replicate (spaces 0) 32 ++ tokenList (fun k => spaces (k + 1)) ts

/-- RFC 7230, 3.2.6: the characters of a token (`tchar`). -/
def tchar (c : UInt8) : Bool :=
  (48 ≤ c.toNat && c.toNat ≤ 57) || (65 ≤ c.toNat && c.toNat ≤ 90) || (97 ≤ c.toNat && c.toNat ≤ 122) ||
  [33, 35, 36, 37, 38, 39, 42, 43, 45, 46, 94, 95, 96, 124, 126].contains c.toNat

/-- RFC 7230, 3.2.6: token = 1*tchar -/
def IsToken (t : Str) : Prop := t ≠ [] ∧ ∀ c ∈ t, tchar c = true

/-- The contract of `Core`. -/
structure Core.Sound (core : Core) : Prop where
  /-- What is found is the value of a field with this name. -/
  get_some : ∀ h name v, core.get h name = some v → v ∈ values h name
  /-- Nothing is found only if there is no such field. -/
  get_none : ∀ h name, core.get h name = none → values h name = []
  /-- A list of tokens is split into these tokens (compared up to case: the set has case-insensitive members). -/
  tokens_list : ∀ spaces ts t, (∀ u ∈ ts, IsToken u) → IsToken t →
    ((∃ u ∈ core.tokens (tokenList spaces ts), Same u t) ↔ ∃ u ∈ ts, Same u t)

end OatWS.Http
