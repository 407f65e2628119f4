import Verif.Spec.Text
/-
Tables taken from the standards rather than from the code: status codes (RFC 9110 and the IANA
registry, with the phrases the library documents) and media types.
-/
namespace Octane.Spec

/-- the registered top-level media types the library uses -/
def topLevel : List Str := [c!"text", c!"application", c!"image", c!"audio", c!"video", c!"font"]

/-- media types by top-level type: extension and subtype -/
def mediaTypes : List (Str × List (Str × Str)) := [
  (c!"text", [(c!"css", c!"css"), (c!"csv", c!"csv"), (c!"html", c!"html"), (c!"htm", c!"html"),
    (c!"ics", c!"calendar"), (c!"js", c!"javascript"), (c!"mjs", c!"javascript"),
    (c!"txt", c!"plain")]),
  (c!"application", [(c!"abw", c!"x-abiword"), (c!"arc", c!"x-freearc"),
    (c!"azw", c!"vnd.amazon.ebook"), (c!"bin", c!"octet-stream"), (c!"bz", c!"x-bzip"),
    (c!"bz2", c!"x-bzip2"), (c!"csh", c!"x-csh"), (c!"doc", c!"msword"),
    (c!"docx", c!"vnd.openxmlformats-officedocument.wordprocessingml.document"),
    (c!"eot", c!"vnd.ms-fontobject"), (c!"epub", c!"epub+zip"), (c!"gz", c!"gzip"),
    (c!"java", c!"java-archive"), (c!"json", c!"json"), (c!"jsonld", c!"ld+json"),
    (c!"mpkg", c!"vnd.apple.installer+xml"), (c!"odp", c!"vnd.oasis.opendocument.presentation"),
    (c!"ods", c!"vnd.oasis.opendocument.spreadsheet"),
    (c!"odt", c!"vnd.oasis.opendocument.text"), (c!"ogx", c!"ogg"), (c!"pdf", c!"pdf"),
    (c!"php", c!"x-httpd-php"), (c!"ppt", c!"vnd.ms-powerpoint"),
    (c!"pptx", c!"vnd.openxmlformats-officedocument.presentationml.presentation"),
    (c!"rar", c!"vnd.rar"), (c!"rtf", c!"rtf"), (c!"sh", c!"x-sh"),
    (c!"swf", c!"x-shockwave-flash"), (c!"tar", c!"x-tar"), (c!"vsd", c!"vnd.visio"),
    (c!"xhtml", c!"xhtml+xml"), (c!"xls", c!"vnd.ms-excel"),
    (c!"xlsx", c!"vnd.openxmlformats-officedocument.spreadsheetml.sheet"), (c!"xml", c!"xml"),
    (c!"xul", c!"vnd.mozilla.xul+xml"), (c!"zip", c!"zip"), (c!"7z", c!"x-7z-compressed")]),
  (c!"image", [(c!"bmp", c!"bmp"), (c!"gif", c!"gif"), (c!"ico", c!"vnd.microsoft.icon"),
    (c!"jpeg", c!"jpeg"), (c!"jpg", c!"jpeg"), (c!"png", c!"png"), (c!"svg", c!"svg+xml"),
    (c!"tif", c!"tiff"), (c!"tiff", c!"tiff"), (c!"webp", c!"webp")]),
  (c!"audio", [(c!"aac", c!"aac"), (c!"mid", c!"midi"), (c!"midi", c!"x-midi"), (c!"mp3", c!"mpeg"),
    (c!"oga", c!"ogg"), (c!"opus", c!"opus"), (c!"wav", c!"wav"), (c!"weba", c!"webm")]),
  (c!"video", [(c!"avi", c!"x-msvideo"), (c!"mpeg", c!"mpeg"), (c!"ogv", c!"ogg"), (c!"ts", c!"mp2t"),
    (c!"webm", c!"webm")]),
  (c!"font", [(c!"otf", c!"otf"), (c!"ttf", c!"ttf"), (c!"woff", c!"woff"), (c!"woff2", c!"woff2")])]

/-- the rows of the table: extension and full media type -/
def mediaRows : List (Str × Str) :=
  mediaTypes.flatMap fun g => g.2.map fun e => (e.1, g.1 ++ '/' :: e.2)

/-- `path` names a file called `name`: `name` is the last of the `/`-separated pieces that are not
empty and not `.` -/
def FileNamed (path name : Str) : Prop :=
  ∃ pre post : List Str, path = ['/'].intercalate (pre ++ name :: post) ∧
    (∀ p ∈ pre ++ name :: post, '/' ∉ p) ∧ (∀ p ∈ post, p = [] ∨ p = c!".") ∧
    name ≠ [] ∧ name ≠ c!"." ∧ name ≠ c!".."

/-- the last extension of a file name -/
def LastExt (name ext : Str) : Prop := ∃ stem, stem ≠ [] ∧ name = stem ++ '.' :: ext ∧ '.' ∉ ext

/-- Pascal case of a phrase: each space-separated word is reduced to its letters, the first
capitalised and the others in lower case, and the words are put together. -/
def pascalWord (w : Str) : Str :=
  match w.filter fun c => isLetter c with
  | [] => []
  | c :: cs => capital c :: cs.map small

end Octane.Spec
