import Verif.Model.Unicode
/-
Model of `src/file_handler.rs` (and of the parts of `std::path::Path` it uses, for `/`-separated
paths).
-/
namespace Octane

/-- `Path::file_name` for a UTF-8 path on Unix: the last component, empty and `.` components being
dropped; none if there is none or it is `..`. -/
def fileName (path : Str) : Option Str :=
  match ((splitChar '/' path).filter fun s => s ≠ [] && s ≠ c!".").getLast? with
  | none => none
  | some s => if s = c!".." then none else some s

/-- the part after the last `.`, if there is one, together with the part before it -/
def rsplitDot (s : Str) : Option (Str × Str) :=
  if '.' ∈ s then
    let ext := (s.reverse.takeWhile (· ≠ '.')).reverse
    some (s.take (s.length - ext.length - 1), ext)
  else none

/-- `Path::extension`: none without a file name, without a dot, or if the only dot is the first
character. -/
def extension (path : Str) : Option Str :=
  match fileName path with
  | none => none
  | some f =>
    match rsplitDot f with
    | none => none
    | some (before, after) => if before = [] then none else some after

/-- `src/file_handler.rs:70-145`: the arms of the `match`, in order (`a | b` as two rows). -/
def mimeTable : List (Str × Str) := [
  (c!"css", c!"text/css"),
  (c!"csv", c!"text/csv"),
  (c!"html", c!"text/html"),
  (c!"htm", c!"text/html"),
  (c!"ics", c!"text/calendar"),
  (c!"js", c!"text/javascript"),
  (c!"mjs", c!"text/javascript"),
  (c!"txt", c!"text/plain"),
  (c!"abw", c!"application/x-abiword"),
  (c!"arc", c!"application/x-freearc"),
  (c!"azw", c!"application/vnd.amazon.ebook"),
  (c!"bin", c!"applcation/octet-stream"),
  (c!"bz", c!"application/x-bzip"),
  (c!"bz2", c!"application/x-bzip2"),
  (c!"csh", c!"application/x-csh"),
  (c!"doc", c!"application/msword"),
  (c!"docx", c!"application/vnd.openxmlformats-officedocument.wordprocessingml.document"),
  (c!"eot", c!"application/vnd.ms-fontobject"),
  (c!"epub", c!"application/epub+zip"),
  (c!"gz", c!"application/gzip"),
  (c!"java", c!"application/java-archive"),
  (c!"json", c!"application/json"),
  (c!"jsonld", c!"application/ld+json"),
  (c!"mpkg", c!"application/vnd.apple.installer+xml"),
  (c!"odp", c!"application/vnd.oasis.opendocument.presentation"),
  (c!"ods", c!"application/vnd.oasis.opendocument.spreadsheet"),
  (c!"odt", c!"application/vnd.oasis.opendocument.text"),
  (c!"ogx", c!"application/ogg"),
  (c!"pdf", c!"application/pdf"),
  (c!"php", c!"application/x-httpd-php"),
  (c!"ppt", c!"application/vnd.ms-powerpoint"),
  (c!"pptx", c!"application/vnd.openxmlformats-officedocument.presentationml.presentation"),
  (c!"rar", c!"application/vnd.rar"),
  (c!"rtf", c!"application/rtf"),
  (c!"sh", c!"application/x-sh"),
  (c!"swf", c!"application/x-shockwave-flash"),
  (c!"tar", c!"application/x-tar"),
  (c!"vsd", c!"application/vnd.visio"),
  (c!"xhtml", c!"application/xhtml+xml"),
  (c!"xls", c!"application/vnd.ms-excel"),
  (c!"xlsx", c!"application/vnd.openxmlformats-officedocument.spreadsheetml.sheet"),
  (c!"xml", c!"application/xml"),
  (c!"xul", c!"application/vnd.mozilla.xul+xml"),
  (c!"zip", c!"application/zip"),
  (c!"7z", c!"application/x-7z-compressed"),
  (c!"bmp", c!"image/bmp"),
  (c!"gif", c!"image/gif"),
  (c!"ico", c!"image/vnd.microsoft.icon"),
  (c!"jpeg", c!"image/jpeg"),
  (c!"jpg", c!"image/jpeg"),
  (c!"png", c!"image/png"),
  (c!"svg", c!"image/svg+xml"),
  (c!"tif", c!"image/tiff"),
  (c!"tiff", c!"image/tiff"),
  (c!"webp", c!"image/webp"),
  (c!"aac", c!"audio/aac"),
  (c!"mid", c!"audio/midi"),
  (c!"midi", c!"audio/x-midi"),
  (c!"mp3", c!"audio/mpeg"),
  (c!"oga", c!"audio/ogg"),
  (c!"opus", c!"audio/opus"),
  (c!"wav", c!"audio/wav"),
  (c!"weba", c!"audio/webm"),
  (c!"avi", c!"video/x-msvideo"),
  (c!"mpeg", c!"video/mpeg"),
  (c!"ogv", c!"video/ogg"),
  (c!"ts", c!"video/mp2t"),
  (c!"webm", c!"video/webm"),
  (c!"otf", c!"font/otf"),
  (c!"ttf", c!"font/ttf"),
  (c!"woff", c!"font/woff"),
  (c!"woff2", c!"font/woff2")]

/-- first row with this key -/
def lookup (t : List (Str × Str)) (k : Str) : Option Str :=
  match t with
  | [] => none
  | (k', v) :: t => if k' = k then some v else lookup t k

/-- `src/file_handler.rs:68-148` `FileHandler::mime_type`. -/
def mimeType (U : Unicode) (ext : Str) : Str := (lookup mimeTable (U.lower ext)).getD c!"text/plain"

/-- `src/file_handler.rs:57-65` `FileHandler::get_extension`. -/
def getExtension (U : Unicode) (path : Str) : Str := mimeType U ((extension path).getD [])

/-- What the file system has at a path: the result of `File::open`, `File::metadata` and
`Metadata::is_file`/`len`, and then of reading. -/
inductive FileAt where
  | cannotOpen
  | noMetadata
  | notRegular
  | regular (contents : Bytes) (len : Nat)
  deriving DecidableEq

/-- `src/file_handler.rs:12-17` `struct FileHandler` (`meta` by its length). -/
structure FileHandler where
  fileName : Str
  contents : Bytes
  extension : Str
  len : Nat

/-- `src/file_handler.rs:33-54` `FileHandler::handle_file`; `ok none` is `Err(_)`. -/
def handleFile (fs : Str → FileAt) (path : Str) : Res (Option FileHandler) :=
  match fs path with
  | .cannotOpen => .ok none
  | .noMetadata => .ok none
  | .notRegular => .ok none
  | .regular contents len =>
    (Res.unwrap (fileName path)).bind fun name =>
      .ok (some { fileName := name, contents, extension := (Octane.extension path).getD [], len })

end Octane
