import Verif.Model.Basic
/-
Model of `octane_http/src/lib.rs:53-129` (`StatusCode`) together with the macro that generates it,
`octane_macros/src/status.rs` and `octane_macros/src/util.rs`.
-/
namespace Octane

/-- `char::is_ascii_alphabetic`. -/
def isAsciiAlpha (c : Char) : Bool :=
  ('A'.toNat ≤ c.toNat && c.toNat ≤ 'Z'.toNat) || ('a'.toNat ≤ c.toNat && c.toNat ≤ 'z'.toNat)

/-- `octane_macros/src/util.rs:4-23` `pascal_case`: the loop, with the flag `uppercase`. -/
def pascalLoop : Bool → Str → Str
  | _, [] => []
  | up, c :: s =>
    if c = ' ' then pascalLoop true s
    else if !isAsciiAlpha c then pascalLoop up s
    else (if up then asciiUpperC c else asciiLowerC c) :: pascalLoop false s

def pascalCase (dat : Str) : Str := pascalLoop true dat

/-- a token of the macro input: a literal with its source text, or anything else -/
inductive MacroTok where
  | literal (repr : Str)
  | other
  deriving DecidableEq

/-- one generated entry: code, phrase, variant name -/
structure StatusEntry where
  code : Int
  name : Str
  cased : Str
  deriving DecidableEq

/-- `s.parse::<i32>().ok()`: optional sign, digits, in range. -/
def parseI32 (s : Str) : Option Int :=
  let (neg, ds) : Bool × Str := match s with
    | '+' :: r => (false, r)
    | '-' :: r => (true, r)
    | _ => (false, s)
  if ds.isEmpty || !ds.all isDigit then none
  else
    let v : Int := if neg then -(digitsVal ds : Int) else (digitsVal ds : Int)
    if -(2 ^ 31) ≤ v && v < 2 ^ 31 then some v else none

/-- `&repr[1..repr.len() - 1]`: byte offsets; panics if they are not character boundaries or out of
order. -/
def unquote (repr : Str) : Res Str :=
  let n := (utf8 repr).length
  if n < 2 then .panic
  else
    (splitAtByte (n - 1) repr).bind fun (a, _) => sliceFrom 1 a

/-- `octane_macros/src/status.rs:10-31`: the loop over the tokens with `is_string`, `prev_num`;
a literal that is not a number where one is expected is the explicit panic. -/
def statusLoop : List MacroTok → Bool → Int → Res (List StatusEntry)
  | [], _, _ => .ok []
  | .other :: toks, isString, prev => statusLoop toks isString prev
  | .literal repr :: toks, isString, prev =>
    if !isString then
      match parseI32 repr with
      | none => .panic
      | some v => statusLoop toks true v
    else
      (unquote repr).bind fun name =>
        (statusLoop toks false prev).bind fun es =>
          .ok ({ code := prev, name, cased := pascalCase name } :: es)

/-- `octane_macros/src/status.rs:4-72` `status_codes`: the entries from which the enum and `fetch` are
generated. Simplification: the generated code is represented by its entries. -/
def statusCodes (toks : List MacroTok) : Res (List StatusEntry) := statusLoop toks false (-1)

/-- `octane_http/src/lib.rs:53-115`: the arguments of `status_codes!`, a number and a string each. -/
def statusArgs : List (Str × Str) := [
  (c!"100", c!"Continue"),
  (c!"101", c!"Switching Protocol"),
  (c!"102", c!"Processing"),
  (c!"103", c!"Early Hints"),
  (c!"200", c!"OK"),
  (c!"201", c!"Created"),
  (c!"202", c!"Accepted"),
  (c!"203", c!"Non-Authoritative Information"),
  (c!"204", c!"No Content"),
  (c!"205", c!"Reset Content"),
  (c!"206", c!"Partial Content"),
  (c!"207", c!"Multi-Status"),
  (c!"208", c!"Already Reported"),
  (c!"226", c!"IM Used"),
  (c!"300", c!"Multiple Choice"),
  (c!"301", c!"Moved Permanently"),
  (c!"302", c!"Found"),
  (c!"303", c!"See Other"),
  (c!"304", c!"Not Modified"),
  (c!"307", c!"Temporary Redirect"),
  (c!"308", c!"Permanent Redirect"),
  (c!"400", c!"Bad Request"),
  (c!"401", c!"Unauthorized"),
  (c!"402", c!"Payment Required"),
  (c!"403", c!"Forbidden"),
  (c!"404", c!"Not Found"),
  (c!"405", c!"Method Not Allowed"),
  (c!"406", c!"Not Acceptable"),
  (c!"407", c!"Proxy Authentication Required"),
  (c!"408", c!"Request Timeout"),
  (c!"409", c!"Conflict"),
  (c!"410", c!"Gone"),
  (c!"411", c!"Length Required"),
  (c!"412", c!"Precondition Failed"),
  (c!"413", c!"Payload Too Large"),
  (c!"414", c!"URI Too Long"),
  (c!"415", c!"Unsupported Media Type"),
  (c!"416", c!"Range Not Satisfiable"),
  (c!"417", c!"Expectation Failed"),
  (c!"418", c!"I'm a teapot"),
  (c!"421", c!"Misdirected Request"),
  (c!"422", c!"Unprocessable Entity"),
  (c!"423", c!"Locked"),
  (c!"424", c!"Failed Dependency"),
  (c!"425", c!"Too Early"),
  (c!"426", c!"Upgrade Required"),
  (c!"428", c!"Precondition Required"),
  (c!"429", c!"Too Many Requests"),
  (c!"431", c!"Request Header Fields Too Large"),
  (c!"451", c!"Unavailable For Legal Reasons"),
  (c!"500", c!"Internal Server Error"),
  (c!"501", c!"Not Implemented"),
  (c!"502", c!"Bad Gateway"),
  (c!"503", c!"Service Unavailable"),
  (c!"504", c!"Gateway Timeout"),
  (c!"505", c!"HTTP Version Not Supported"),
  (c!"506", c!"Variant Also Negotiates"),
  (c!"507", c!"Insufficient Storage"),
  (c!"508", c!"Loop Detected"),
  (c!"510", c!"Not Extended"),
  (c!"511", c!"Network Authentication Required")]

/-- the same as macro tokens -/
def statusToks : List MacroTok :=
  statusArgs.flatMap fun (n, s) => [.literal n, .literal ('"' :: s ++ ['"'])]

/-- The entries generated for the table (proved to be what `statusCodes` makes of `statusToks`). -/
def statusTable : List (Int × Str) := [
  (100, c!"Continue"),
  (101, c!"Switching Protocol"),
  (102, c!"Processing"),
  (103, c!"Early Hints"),
  (200, c!"OK"),
  (201, c!"Created"),
  (202, c!"Accepted"),
  (203, c!"Non-Authoritative Information"),
  (204, c!"No Content"),
  (205, c!"Reset Content"),
  (206, c!"Partial Content"),
  (207, c!"Multi-Status"),
  (208, c!"Already Reported"),
  (226, c!"IM Used"),
  (300, c!"Multiple Choice"),
  (301, c!"Moved Permanently"),
  (302, c!"Found"),
  (303, c!"See Other"),
  (304, c!"Not Modified"),
  (307, c!"Temporary Redirect"),
  (308, c!"Permanent Redirect"),
  (400, c!"Bad Request"),
  (401, c!"Unauthorized"),
  (402, c!"Payment Required"),
  (403, c!"Forbidden"),
  (404, c!"Not Found"),
  (405, c!"Method Not Allowed"),
  (406, c!"Not Acceptable"),
  (407, c!"Proxy Authentication Required"),
  (408, c!"Request Timeout"),
  (409, c!"Conflict"),
  (410, c!"Gone"),
  (411, c!"Length Required"),
  (412, c!"Precondition Failed"),
  (413, c!"Payload Too Large"),
  (414, c!"URI Too Long"),
  (415, c!"Unsupported Media Type"),
  (416, c!"Range Not Satisfiable"),
  (417, c!"Expectation Failed"),
  (418, c!"I'm a teapot"),
  (421, c!"Misdirected Request"),
  (422, c!"Unprocessable Entity"),
  (423, c!"Locked"),
  (424, c!"Failed Dependency"),
  (425, c!"Too Early"),
  (426, c!"Upgrade Required"),
  (428, c!"Precondition Required"),
  (429, c!"Too Many Requests"),
  (431, c!"Request Header Fields Too Large"),
  (451, c!"Unavailable For Legal Reasons"),
  (500, c!"Internal Server Error"),
  (501, c!"Not Implemented"),
  (502, c!"Bad Gateway"),
  (503, c!"Service Unavailable"),
  (504, c!"Gateway Timeout"),
  (505, c!"HTTP Version Not Supported"),
  (506, c!"Variant Also Negotiates"),
  (507, c!"Insufficient Storage"),
  (508, c!"Loop Detected"),
  (510, c!"Not Extended"),
  (511, c!"Network Authentication Required")]

/-- The generated `enum StatusCode` (`octane_macros/src/status.rs:32-42`): one variant per entry
and `Other`. A named variant is represented by its position in the table. -/
inductive StatusCode where
  | named (i : Fin 61)
  | other (n : Int) (s : Str)
  deriving DecidableEq

/-- The generated `StatusCode::fetch` (`octane_macros/src/status.rs:43-70`). -/
def StatusCode.fetch : StatusCode → Int × Str
  | .named i => statusTable[i.val]'(i.isLt)
  | .other n s => (n, s)

/-- `octane_http/src/lib.rs:117-122` `Into<i32>`. -/
def StatusCode.code (s : StatusCode) : Int := s.fetch.1

/-- `octane_http/src/lib.rs:124-129` `Display`. -/
def StatusCode.toStr (s : StatusCode) : Str := s.fetch.2

/-- `StatusCode::Ok` -/
def StatusCode.ok : StatusCode := .named 4
/-- `StatusCode::Found` -/
def StatusCode.found : StatusCode := .named 16
/-- `StatusCode::BadRequest` -/
def StatusCode.badRequest : StatusCode := .named 21
/-- `StatusCode::NotFound` -/
def StatusCode.notFound : StatusCode := .named 25
/-- `StatusCode::NotImplemented` -/
def StatusCode.notImplemented : StatusCode := .named 51

end Octane
