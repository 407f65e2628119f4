import Verif.Model.Server
import Verif.Model.Time
import Verif.Model.Listen
/-
The tests that come with the code, replayed on the model. Each `example` cites the test it
transcribes. They are tests, not proofs: they say that the model agrees with what the authors of
the code observed. No theorem depends on this file.
-/
namespace Octane.RepoTests
open Octane Query

/-- does the computation end with this value? -/
def yields {α : Type} [DecidableEq α] (r : Res α) (a : α) : Bool :=
  match r with
  | .ok b => decide (b = a)
  | .panic => false

/-- does the computation end with a value satisfying this? -/
def okAnd {α : Type} (r : Res α) (p : α → Bool) : Bool :=
  match r with
  | .ok b => p b
  | .panic => false

/-! `src/cookie.rs:101-124` -/

-- cookie_parsing
example : Cookie.parse c!"name1=value1; name2=value2" =
    .ok [⟨c!"name1", c!"value1", []⟩, ⟨c!"name2", c!"value2", []⟩] := by decide +kernel
-- cookie_serialize
example : Cookie.serialise ⟨c!"name", c!"value", [c!"HttpOnly"]⟩ =
    c!"Set-Cookie: name=value; HttpOnly" := by decide +kernel

/-! `src/path.rs:452-543` -/

-- success_standard
example : Path.parse c!"/asdf//foo/a/b/c/../d" = some [c!"asdf", c!"foo", c!"a", c!"b", c!"d"] := by
  decide +kernel
-- success_matching, with `url_variables`
example : ∀ o ∈ [c!"asdf/test/foo/", c!"/asdf/test/foo"], (do
    let p1 ← Path.parse c!"/asdf/:var/foo/"
    let p2 ← Path.parse o
    some (okAnd (Path.checkMatches p1 p2) fun m =>
      (m.bind fun v => HMap.get v c!"var") == some c!"test")) = some true := by decide +kernel
example : (do
    let p1 ← Path.parse c!"/asdf/:var/foo/"
    let p4 ← Path.parse c!"/asdf/test/bad"
    some (okAnd (Path.checkMatches p1 p4) (·.isNone))) = some true := by decide +kernel
-- success_matching, without
example : (do
    let p1 ← Path.parse c!"/asdf/test/foo/"
    let p2 ← Path.parse c!"asdf/test/foo"
    let p3 ← Path.parse c!"asdf/test/bad"
    some ((Path.checkMatchesPlain p1 p2).isSome, (Path.checkMatchesPlain p1 p3).isNone)) =
      some (true, true) := by decide +kernel
-- success_subtraction
example : (do
    let p1 ← Path.parse c!"/a/b/c/d/"
    let p2 ← Path.parse c!"/a/b/"
    let p3 ← Path.parse c!"/c/d"
    let p4 ← Path.parse c!"a/:x/c"
    some (Path.subtract p1 p2, Path.subtract p1 p3, Path.subtract p1 p4)) =
      some (some [c!"c", c!"d"], none, none) := by decide +kernel
-- fail_traversal
example : Path.parse c!"/asdf/../.." = none := by decide +kernel
-- success_tree, with `url_variables`; `extend` takes the items in the order of the iterator
example : okAnd (do
    let t ← PathNode.insert (T := Nat) PathNode.new [c!"asdf", c!":var", c!"foo"] 1
    let t ← PathNode.insert t [c!"asdf", c!"test", c!"bad"] 4
    let items ← Res.unwrap (PathNode.ownedItems (fun _ l => l) t)
    let n ← PathNode.extend PathNode.new items
    let a ← PathNode.get true n [c!"asdf", c!"test", c!"nope"]
    let b ← PathNode.get true n [c!"asdf", c!"test", c!"foo"]
    let d ← PathNode.get true n [c!"asdf", c!"test", c!"bad"]
    Res.ok (a, b, d)) (fun (a, b, d) =>
      a.isEmpty && (b.map fun m => (m.data, m.vars)) == [(1, [(c!"var", c!"test")])]
        && (d.map fun m => (m.data, m.vars)) == [(4, [])]) = true := by decide +kernel
-- success_tree, without
example : okAnd (do
    let t ← PathNode.insert (T := Nat) PathNode.new [c!"asdf", c!"test", c!"foo"] 1
    let a ← PathNode.get false t [c!"asdf", c!"test", c!"bad"]
    let b ← PathNode.get false t [c!"asdf", c!"test", c!"foo"]
    Res.ok (a, b)) (fun (a, b) => a.isEmpty && (b.map (·.data)) == [1]) = true := by decide +kernel

/-! `src/query.rs:264-333` -/

-- success_standard_extended_queries
example : okAnd (parseExtendedQuery true
      c!"abc=def&ab=ab%20cd%4A&arr[]=x&arr[]=y&arr[]=z&obj[a]=x&obj[b]=y&obj[c]=z") (fun q =>
    decide (HMap.get q c!"abc" = some (.str c!"def")) &&
    decide (HMap.get q c!"ab" = some (.str c!"ab cdJ")) &&
    decide (HMap.get q c!"arr" = some (.arr [c!"x", c!"y", c!"z"])) &&
    (match HMap.get q c!"obj" with
      | some (.obj o) => decide (HMap.get o c!"a" = some c!"x" ∧ HMap.get o c!"b" = some c!"y" ∧
          HMap.get o c!"c" = some c!"z")
      | _ => false)) = true := by decide +kernel
-- success_ignore_incompatible
example : okAnd (parseExtendedQuery true c!"a[]=2&a[x]=3&a=1&b[]=1&b[x]=2&c[x]=1&c[]=2") (fun q =>
    decide (HMap.get q c!"a" = some (.str c!"1")) &&
    decide (HMap.get q c!"b" = some (.arr [c!"1"])) &&
    (match HMap.get q c!"c" with
      | some (.obj o) => decide (HMap.get o c!"x" = some c!"1")
      | _ => false)) = true := by decide +kernel
-- success_standard
example : okAnd (parseQuery true c!"abc=def&ab=ab%20cd%4A") (fun q =>
    decide (HMap.get q c!"abc" = some c!"def" ∧ HMap.get q c!"ab" = some c!"ab cdJ")) = true := by
  decide +kernel
-- success_blank_query
example : okAnd (parseQuery true c!"a&abc=def") (fun q =>
    decide (HMap.get q c!"a" = some [] ∧ HMap.get q c!"abc" = some c!"def")) = true := by
  decide +kernel
-- success_weird_hex
example : okAnd (parseQuery true c!"a=%0%41&b=%41%0&c=%%41&d=A%5") (fun q =>
    decide (HMap.get q c!"a" = some c!"%0A" ∧ HMap.get q c!"b" = some c!"A%0" ∧
      HMap.get q c!"c" = some c!"%A" ∧ HMap.get q c!"d" = some c!"A%5")) = true := by
  decide +kernel
-- success_no_name
example : ∀ q ∈ [c!"", c!"=x", c!"=x&=y"], parseQuery true q = .ok [] := by decide +kernel

/-! `src/request.rs:453-603` -/

-- success_standard_request_line, success_other_method, sucess_non_documented
example : RequestLine.parse true c!"POST /abc/def HTTP/1.1" =
    .ok (some ⟨.post, [c!"abc", c!"def"], .http11⟩) := by decide +kernel
example : RequestLine.parse true c!"PATCH /abc/def HTTP/1.1" =
    .ok (some ⟨.patch, [c!"abc", c!"def"], .http11⟩) := by decide +kernel
example : RequestLine.parse true c!"XYZ /abc/def HTTP/1.1" =
    .ok (some ⟨.none, [c!"abc", c!"def"], .http11⟩) := by decide +kernel
-- fail_extra_1, fail_extra_2, fail_malformed_version, fail_missing_clause
example : ∀ l ∈ [c!"POST /abc/def HTTP/1.1 x", c!"POST /a /b HTTP/1.1", c!"POST /abc/def HTDP/1.1",
    c!"POST /abc/def"],
    ((RequestLine.parse true l).bind Res.unwrap) = .panic := by decide +kernel
-- fail_extra_2 and fail_missing_clause are run without `faithful` too
example : ∀ l ∈ [c!"POST /a /b HTTP/1.1", c!"POST /abc/def"],
    ((RequestLine.parse false l).bind Res.unwrap) = .panic := by decide +kernel
-- success_standard
example : okAnd (Headers.parse true (c!"Host: localhost:12345\r\nUser-Agent: curl/7.58.0\r\n" ++
      c!"Accept: */*\r\nContent-Length: 20\r\nContent-Type: application/x-www-form-urlencoded"))
    (fun h => match h with
      | some h => decide (h.get c!"host" = some c!"localhost:12345" ∧
          h.get c!"user-agent" = some c!"curl/7.58.0" ∧ h.get c!"accept" = some c!"*/*" ∧
          h.get c!"content-length" = some c!"20" ∧
          h.get c!"content-type" = some c!"application/x-www-form-urlencoded")
      | none => false) = true := by decide +kernel
-- success_raw_headers
example : okAnd (Headers.parse true c!"HOst: localhost:12345\r\nUser-Agent: curl/7.58.0")
    (fun h => (h.map fun h => h.raw.map fun x => (x.name, x.value)) ==
      some [(c!"HOst", c!"localhost:12345"), (c!"User-Agent", c!"curl/7.58.0")]) = true := by
  decide +kernel
-- success_standard_header, success_empty_value
example : Header.parse true c!"Referer: \t\t request://www.example.com/" =
    some ⟨c!"Referer", c!"request://www.example.com/"⟩ := by decide +kernel
example : Header.parse true c!"Referer: \t\t " = some ⟨c!"Referer", []⟩ := by decide +kernel
-- fail_no_value, fail_empty_name, fail_malformed_name
example : ∀ h ∈ [c!"Referer", c!": test", c!"Test Header: test"], Header.parse true h = none := by
  decide +kernel
-- success_keepalive, success_keepalive_edge
example : KeepAlive.parse c!"timeout=5, max=1000" = .ok ⟨some 5, some 1000⟩ := by decide +kernel
example : KeepAlive.parse c!"timeout=,test,max=a, timeout=5" = .ok ⟨some 5, none⟩ := by
  decide +kernel

/-! `src/responder.rs:549-579`: the whole response, read to the end -/

def asIs : MapOrder := ⟨fun m => m, fun _ => .refl _⟩

def wire (r : Response) : Bytes := sendData (r.getData Unicode.asciiOnly true asIs)

-- success_standard
example : wire (Response.newFromSlice []) = utf8 c!"HTTP/1.1 200 OK\r\n\r\n" := by decide +kernel
-- response_with_status_code_different; `Created` is entry 5 of the table (from 0)
example : wire ((Response.newFromSlice []).status (.named 5)) =
    utf8 c!"HTTP/1.1 201 CREATED\r\n\r\n" := by decide +kernel
-- response_with_different_http_version
example : wire (((Response.newFromSlice []).setHttpVersion .http10).status (.named 5)) =
    utf8 c!"HTTP/1.0 201 CREATED\r\n\r\n" := by decide +kernel

/-! `src/router.rs:479-583` -/

/-- `route!(|req, res| { Flow::Next })` -/
def next : Closure Unit := fun _ s => .ok (s, .next)

/-- the five methods the tests register on -/
def five : List RequestMethod := [.get, .post, .head, .put, .delete]

def testRouter : Res (Router Unit) :=
  five.foldl (fun r m => r.bind fun r => (r.injectMethod c!"/" next m).bind fun x =>
      if x.2 then .ok x.1 else .panic)
    (.ok (Router.add Router.new next))

-- router_test
example : okAnd testRouter (fun r => r.paths.length == 5 && r.middlewares.length == 1) = true := by
  decide +kernel
-- router_append_test
example : okAnd (do
    let a ← testRouter
    let b ← testRouter
    Router.append ⟨fun l => l, fun _ _ l => l⟩ a b) (fun r =>
      r.middlewares.length == 2 && five.all fun m =>
        match HMap.get r.paths m with
        | some n => okAnd (PathNode.get true n []) (·.length == 2)
        | none => false) = true := by decide +kernel

/-! `src/time.rs:160-178` -/

-- start_date, some_time_stamp, some_more_time_stamps
example : ∀ p ∈ [((0 : Int), c!"Thu, 01 Jan 1970 00:00:00 GMT"),
    (6043440870, c!"Sun, 05 Jul 2161 05:34:30 GMT"), (333452334, c!"Sat, 26 Jul 1980 09:38:54 GMT")],
    (Time.time p.1).bind Time.format = .ok p.2 := by decide +kernel

/-! The integration tests `tests/*.rs`. A client's request is given as the text a client such as
`reqwest` sends; the response is compared by its status line and its body. -/

/-- `route_next!(|req, res| res.send(text))`, at second 0 -/
def sends (text : Str) : Closure (Unit × Response) := fun _ st =>
  (st.2.send Unicode.asciiOnly 0 (utf8 text)).bind fun r => .ok (((), r), .next)

def registered (text : Str) (path : Str) (ms : List RequestMethod) : Res (Router (Unit × Response)) :=
  ms.foldl (fun r m => r.bind fun r => (r.injectMethod path (sends text) m).bind fun x =>
    if x.2 then .ok x.1 else .panic) (.ok Router.new)

def serverOf (router : Router (Unit × Response)) : Server Unit :=
  { feat := .default, allocOk := fun _ => true, U := Unicode.asciiOnly, ord := asIs,
    clock := fun _ => 0, router }

def requestText (method target : Str) (extra : Str := []) : Bytes :=
  utf8 (method ++ c!" " ++ target ++ c!" HTTP/1.1\r\nhost: 0.0.0.0:8080\r\naccept: */*\r\n" ++ extra
    ++ c!"\r\n")

/-- does the server answer `200 OK` with this text, keeping the connection's other half open? -/
def answers (r : Res (Router (Unit × Response))) (request : Bytes) (text : Str) : Bool :=
  okAnd r fun router =>
    match (serverOf router).serve () ⟨[request], .silent⟩ with
    | .ok (_, bytes) => (utf8 c!"HTTP/1.1 200 OK\r\n").isPrefixOf bytes
        && (utf8 (c!"\r\n\r\n" ++ text)).isSuffixOf bytes
    | _ => false

-- tests/server.rs basic_server_hello
example : answers (registered c!"Hello, World" c!"/" [.get]) (requestText c!"GET" c!"/")
    c!"Hello, World" = true := by decide +kernel
-- tests/server.rs basic_server_x_req, all but the last request
example : ∀ m ∈ [c!"GET", c!"POST", c!"PUT", c!"PATCH", c!"DELETE"],
    answers (registered c!"Hello, World" c!"/" [.get, .post, .put, .patch, .head, .delete])
      (requestText m c!"/") c!"Hello, World" = true := by decide +kernel
-- tests/router.rs basic_router
example : ∀ m ∈ [c!"GET", c!"POST", c!"PUT", c!"PATCH", c!"DELETE"], ∀ p ∈ [c!"/route1", c!"/route2"],
    answers (do
      let router ← registered c!"My Rust Program 1.0" c!"/route1" [.get, .post, .put, .patch, .delete, .head]
      let app ← registered c!"My Rust Program 1.0" c!"/route2" [.get, .post, .put, .patch, .delete, .head]
      Router.append ⟨fun l => l, fun _ _ l => l⟩ app router)
      (requestText m p) c!"My Rust Program 1.0" = true := by decide +kernel

/-- a handler that asserts something about the request before it sends: a failing assertion panics -/
def asserting (p : MatchedRequest → Bool) : Closure (Unit × Response) := fun mr st =>
  if p mr then sends c!"test" mr st else .panic

-- tests/url_variables.rs basic_url_variables
example : answers ((Router.new.injectMethod c!"/foo/:var"
      (asserting fun mr => HMap.get mr.vars c!"var" == some c!"bar") .get).bind fun x => .ok x.1)
    (requestText c!"GET" c!"/foo/bar") c!"test" = true := by decide +kernel
-- tests/headers.rs basic_header_value_retrival
example : answers ((Router.new.injectMethod c!"/"
      (asserting fun mr => mr.request.headers.get c!"user-agent" == some c!"My Rust Program") .get).bind
        fun x => .ok x.1)
    (requestText c!"GET" c!"/" c!"user-agent: My Rust Program\r\n") c!"test" = true := by
  decide +kernel

end Octane.RepoTests
