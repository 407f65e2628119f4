import Verif.Model.Basic
/-
Model of `src/query.rs`.
-/
namespace Octane
namespace Query

/-- `src/query.rs:102-117` `from_hex`. `chr as u8` is exact because `chr ≤ 'f'`. -/
def fromHex (chr : Char) : Option Nat :=
  if chr.toNat > 'f'.toNat then none
  else
    let c := chr.toNat
    if 48 ≤ c ∧ c ≤ 57 then some (c - 48)
    else if 65 ≤ c ∧ c ≤ 70 then some (c - 65 + 10)
    else if 97 ≤ c ∧ c ≤ 102 then some (c - 97 + 10)
    else none

/-- `src/query.rs:39-47` `struct DoublePeek`; `iter` is what the wrapped `Chars` iterator has
not yet produced. `cache` is a two-element array. -/
structure DoublePeek where
  iter : Str
  cache0 : Char
  cache1 : Char
  stored : Nat
  unpeek : Bool

namespace DoublePeek

/-- `src/query.rs:53-61` `DoublePeek::new`; `char::default()` is `'\0'`. -/
def new (it : Str) : DoublePeek :=
  { iter := it, cache0 := Char.ofNat 0, cache1 := Char.ofNat 0, stored := 0, unpeek := false }

/-- `src/query.rs:63-81` `DoublePeek::peek`. `cache[stored]` panics for `stored ≥ 2`. -/
def peek (p : DoublePeek) : Res (Option Char × DoublePeek) :=
  if p.unpeek ∧ p.stored > 0 then .ok (some p.cache0, { p with unpeek := false })
  else if p.stored = 2 then .ok (none, { p with unpeek := false })
  else match p.iter with
    | [] => .ok (none, { p with unpeek := false })
    | v :: rest =>
      if p.stored = 0 then
        .ok (some v, { p with iter := rest, cache0 := v, stored := 1, unpeek := false })
      else if p.stored = 1 then
        .ok (some v, { p with iter := rest, cache1 := v, stored := 2, unpeek := false })
      else .panic

/-- `src/query.rs:89-99` `Iterator::next` for `DoublePeek`; `mem::take` leaves `'\0'`. -/
def next (p : DoublePeek) : Option Char × DoublePeek :=
  if p.stored = 1 then (some p.cache0, { p with stored := 0, cache0 := Char.ofNat 0 })
  else if p.stored = 2 then
    (some p.cache0, { p with stored := 1, cache0 := p.cache1, cache1 := Char.ofNat 0 })
  else match p.iter with
    | [] => (none, p)
    | v :: rest => (some v, { p with iter := rest })

end DoublePeek

/-- `src/query.rs:7-35`: the `while let` loop of `unescape_hex`, at most `fuel` iterations
(every iteration consumes at least one character, so `length + 1` suffice; running out of
fuel is reported as a panic and proved impossible). -/
def unescapeLoop : Nat → DoublePeek → Str → Res Str
  | 0, _, _ => .panic
  | fuel + 1, p, ret =>
    match p.next with
    | (none, _) => .ok ret
    | (some val, p) =>
      if val ≠ '%' then unescapeLoop fuel p (ret ++ [val])
      else
        ({ p with unpeek := true } : DoublePeek).peek.bind fun
          | (none, p) => unescapeLoop fuel p (ret ++ ['%'])
          | (some c1, p) =>
            p.peek.bind fun
              | (none, p) => unescapeLoop fuel p (ret ++ ['%'])
              | (some c2, p) =>
                match fromHex c1, fromHex c2 with
                | some h1, some h2 =>
                  -- `u8` arithmetic: overflow panics (debug) / wraps (release)
                  if h1 * 16 + h2 < 256 then
                    unescapeLoop fuel p.next.2.next.2 (ret ++ [Char.ofNat (h1 * 16 + h2)])
                  else .panic
                | _, _ => unescapeLoop fuel p (ret ++ ['%'])

/-- `src/query.rs:3-37` `unescape_hex`. -/
def unescapeHex (s : Str) : Res Str := unescapeLoop (s.length + 1) (DoublePeek.new s) []

/-- `src/query.rs:122-138`: the loop of `parse_query`. -/
def parseQueryLoop (faithful : Bool) : List Str → HMap Str Str → Res (HMap Str Str)
  | [], ret => .ok ret
  | tok :: toks, ret =>
    if faithful ∧ tok = [] then parseQueryLoop faithful toks ret
    else match findChar '=' tok with
      | some v =>
        (splitAtByte v tok).bind fun (name, val) =>
          if faithful ∧ name = [] then parseQueryLoop faithful toks ret
          else
            (unescapeHex name).bind fun k =>
              (sliceFrom 1 val).bind fun v' =>
                (unescapeHex v').bind fun v'' =>
                  parseQueryLoop faithful toks (ret.insert k v'')
      | none =>
        (unescapeHex tok).bind fun k => parseQueryLoop faithful toks (ret.insert k [])

/-- `src/query.rs:119-140` `parse_query`. -/
def parseQuery (faithful : Bool) (query : Str) : Res (HMap Str Str) :=
  parseQueryLoop faithful (splitChar '&' query) []

/-- `src/query.rs:159-166` `enum QueryValue`. -/
inductive QueryValue where
  | str (s : Str)
  | arr (l : List Str)
  | obj (m : HMap Str Str)
  deriving DecidableEq

/-- `src/query.rs:171-177` `QueryValue::get_str`. -/
def QueryValue.getStr : QueryValue → Option Str
  | .str s => some s
  | _ => none

/-- `src/query.rs:179-185` `QueryValue::get_arr`. -/
def QueryValue.getArr : QueryValue → Option (List Str)
  | .arr l => some l
  | _ => none

/-- `src/query.rs:187-193` `QueryValue::get_obj`. -/
def QueryValue.getObj : QueryValue → Option (HMap Str Str)
  | .obj m => some m
  | _ => none

/-- `src/query.rs:214`: `bytes.iter().rev().position(|&v| v == b'[')`. -/
def revPosition (bytes : Bytes) (b : UInt8) : Option Nat := bytes.reverse.findIdx? (· == b)

/-- `src/query.rs:204-255`: the body of the loop of `parse_extended_query` for one token. -/
def extStep (faithful : Bool) (tok : Str) (ret : HMap Str QueryValue) :
    Res (HMap Str QueryValue) :=
  if faithful ∧ tok = [] then .ok ret
  else match findChar '=' tok with
    | none => (unescapeHex tok).bind fun k => .ok (ret.insert k (.str []))
    | some v =>
      (splitAtByte v tok).bind fun (name, val) =>
      (sliceFrom 1 val).bind fun val1 =>
      (unescapeHex val1).bind fun unescapedVal =>
      if name = [] then .ok ret
      else
        let bytes := utf8 name
        let bytelen := bytes.length
        let plain : Unit → Res (HMap Str QueryValue) := fun _ =>
          (unescapeHex name).bind fun k => .ok (ret.insert k (.str unescapedVal))
        match bytes[bytelen - 1]? with
        | none => .panic
        | some last =>
          if last = 93 then -- b']'
            match revPosition bytes 91 with -- b'['
            | some i =>
              let ind := bytelen - i - 1
              match fromUtf8 (bytes.take ind) with
              | none => .ok ret
              | some outside =>
                match fromUtf8 ((bytes.take (bytelen - 1)).drop (ind + 1)) with
                | none => .ok ret
                | some inside =>
                  if inside = [] then
                    let ret := if (ret.get outside).isNone then ret.insert outside (.arr []) else ret
                    match ret.get outside with
                    | some (.arr v) => .ok (ret.insert outside (.arr (v ++ [unescapedVal])))
                    | _ => .ok ret
                  else
                    let ret := if (ret.get outside).isNone then ret.insert outside (.obj []) else ret
                    match ret.get outside with
                    | some (.obj v) => .ok (ret.insert outside (.obj (v.insert inside unescapedVal)))
                    | _ => .ok ret
            | none => plain ()
          else plain ()

/-- `src/query.rs:200-256`: the loop of `parse_extended_query`. -/
def extLoop (faithful : Bool) : List Str → HMap Str QueryValue → Res (HMap Str QueryValue)
  | [], ret => .ok ret
  | tok :: toks, ret => (extStep faithful tok ret).bind (extLoop faithful toks)

/-- `src/query.rs:197-258` `parse_extended_query`. -/
def parseExtendedQuery (faithful : Bool) (query : Str) : Res (HMap Str QueryValue) :=
  extLoop faithful (splitChar '&' query) []

end Query
end Octane
