import Verif.Spec.Text
/-
The IANA registry of HTTP status codes, as it stood when the library was written (RFC 7231 and the RFCs
it lists; RFC 9110 later renamed 413 and 422). Written from the registry, grouped by class, not from the
library's table.
-/
namespace Octane.Spec

/-- last two digits and phrase, for each first digit -/
def registry : List (Nat × List (Nat × Str)) := [
  (1, [(0, c!"Continue"), (1, c!"Switching Protocols"), (2, c!"Processing"), (3, c!"Early Hints")]),
  (2, [(0, c!"OK"), (1, c!"Created"), (2, c!"Accepted"), (3, c!"Non-Authoritative Information"),
    (4, c!"No Content"), (5, c!"Reset Content"), (6, c!"Partial Content"), (7, c!"Multi-Status"),
    (8, c!"Already Reported"), (26, c!"IM Used")]),
  (3, [(0, c!"Multiple Choices"), (1, c!"Moved Permanently"), (2, c!"Found"), (3, c!"See Other"),
    (4, c!"Not Modified"), (5, c!"Use Proxy"), (7, c!"Temporary Redirect"),
    (8, c!"Permanent Redirect")]),
  (4, [(0, c!"Bad Request"), (1, c!"Unauthorized"), (2, c!"Payment Required"), (3, c!"Forbidden"),
    (4, c!"Not Found"), (5, c!"Method Not Allowed"), (6, c!"Not Acceptable"),
    (7, c!"Proxy Authentication Required"), (8, c!"Request Timeout"), (9, c!"Conflict"), (10, c!"Gone"),
    (11, c!"Length Required"), (12, c!"Precondition Failed"), (13, c!"Payload Too Large"),
    (14, c!"URI Too Long"), (15, c!"Unsupported Media Type"), (16, c!"Range Not Satisfiable"),
    (17, c!"Expectation Failed"), (21, c!"Misdirected Request"), (22, c!"Unprocessable Entity"),
    (23, c!"Locked"), (24, c!"Failed Dependency"), (25, c!"Too Early"), (26, c!"Upgrade Required"),
    (28, c!"Precondition Required"), (29, c!"Too Many Requests"),
    (31, c!"Request Header Fields Too Large"), (51, c!"Unavailable For Legal Reasons")]),
  (5, [(0, c!"Internal Server Error"), (1, c!"Not Implemented"), (2, c!"Bad Gateway"),
    (3, c!"Service Unavailable"), (4, c!"Gateway Timeout"), (5, c!"HTTP Version Not Supported"),
    (6, c!"Variant Also Negotiates"), (7, c!"Insufficient Storage"), (8, c!"Loop Detected"),
    (10, c!"Not Extended"), (11, c!"Network Authentication Required")])]

/-- `code` is registered with this phrase -/
def Registered (code : Int) (phrase : Str) : Prop :=
  ∃ cls ∈ registry, ∃ e ∈ cls.2, code = 100 * cls.1 + e.1 ∧ phrase = e.2

instance (code : Int) (phrase : Str) : Decidable (Registered code phrase) := by
  unfold Registered; infer_instance

end Octane.Spec
