import Verif.Check.Decide
import Verif.Props.Path
import Verif.Props.Trie
import Verif.Props.Router
import Verif.Props.Query
import Verif.Props.Request
import Verif.Props.Response
import Verif.Props.Server
import Verif.Props.Delivery
/-
Cases for C01 – C37: each theorem with hypotheses that is not applied next to its proof is applied here to concrete data
that meet them. No theorem depends on this file.
-/
namespace Octane.Cases
open Octane Spec Query

/-! ### Paths -/

theorem parsed : Path.parse c!"/a/./b/../:x//c" = some [c!"a", c!":x", c!"c"] := by decide +kernel

example := C01_parsed_path_normal _ _ parsed
example := C03_display_parse _ _ parsed
example := C04_no_traversal c!"/a/../etc/passwd" [c!"etc", c!"passwd"] (by decide +kernel) [c!"srv", c!"www"]
example := C05_bindings _ _ parsed [c!"a", c!"b", c!"c"] [(c!"x", c!"b")] (by decide +kernel) c!"x" c!"b"

/-! ### The table of routes -/

def regs : List (PathBuf × Nat) := [([c!"a", c!":x"], 1), ([c!"a", c!"b"], 2), ([c!":x"], 3), ([c!"a", c!"b"], 4)]

theorem regs_parsed : ∀ e ∈ regs, ∃ s, Path.parse s = some e.1 := by
  intro e he
  simp only [regs, List.mem_cons, List.not_mem_nil, or_false] at he
  rcases he with rfl | rfl | rfl | rfl
  · exact ⟨c!"/a/:x", by decide +kernel⟩
  · exact ⟨c!"/a/b", by decide +kernel⟩
  · exact ⟨c!":x", by decide +kernel⟩
  · exact ⟨c!"a/b/", by decide +kernel⟩

example : ∃ n l, buildTable regs = .ok n ∧ PathNode.get true n [c!"a", c!"b"] = .ok l ∧
    (l.map (·.data)).Perm [1, 2, 4] := by
  obtain ⟨n, hn, -⟩ := C09_no_panic regs regs_parsed
  obtain ⟨l, h1, h2⟩ := C08_lookup_exact regs regs_parsed n hn true [c!"a", c!"b"]
  exact ⟨n, l, hn, h1, by
    have : (regs.filter fun e => decide (PatMatch true e.1 [c!"a", c!"b"])).map (·.2) = [1, 2, 4] := by decide +kernel
    rwa [this] at h2⟩
example : ∃ n l, buildTable regs = .ok n ∧ PathNode.ownedItems (fun _ m => m.reverse) n = some l ∧
    (l.map fun d => (d.origPath, d.data)).Perm regs := by
  obtain ⟨n, hn, -⟩ := C09_no_panic regs regs_parsed
  obtain ⟨⟨l, h1, h2⟩, -⟩ := C10_iterators regs regs_parsed n hn (fun _ m => m.reverse) (fun _ m => List.reverse_perm m)
  exact ⟨n, l, hn, h1, h2⟩

/-! ### The router -/

section
open RouterExample

example := C12_parsed_method true c!"POST /a HTTP/1.1" ⟨.post, [c!"a"], .http11⟩ (by decide +kernel)

/-- without the handler that stops -/
def going : List (Call (Unit × List Event)) :=
  [.route .get c!"/a/:x" (tr 0 .next), .route .addRoute c!"/a/b" (tr 1 .next), .add (tr 2 .next)]
theorem going_fair : FairL going := by simp [going, FairL, Fair]
theorem going_traced : TracedLog 0 (logOfL going) := by
  have h : ∀ k fl, Traced k (tr k fl) := by
    intro k fl mr s t s' t' fl' h
    simp only [tr, Res.ok.injEq, Prod.mk.injEq] at h
    obtain ⟨⟨-, rfl⟩, rfl⟩ := h
    rfl
  have hl : (logOfL going).map (·.handler) = [tr 0 .next, tr 1 .next, tr 2 .next] := rfl
  intro k e hk
  have hk' : ((logOfL going).map (·.handler))[k]? = some e.handler := by simp [hk]
  rw [hl] at hk'
  match k, hk' with
  | 0, hk' => simp at hk'; rw [← hk']; exact h 0 _
  | 1, hk' => simp at hk'; rw [← hk']; exact h 1 _
  | 2, hk' => simp at hk'; rw [← hk']; exact h 2 _
  | k + 3, hk' => simp at hk'
theorem going_dispatched : Dispatched true going getAB
    [(0, [(c!"x", c!"b")], .next), (1, [], .next), (2, [], .next)] := by
  obtain ⟨r, h1, h2⟩ := C12_run_is_replay going going_fair (by decide)
  refine ⟨r, (), (), h1, ?_⟩
  rw [h2 true getAB ((), []) (by decide)]
  rfl
/-- the handler of any method -/
example := C14_any_method_runs going_dispatched going_fair (by decide) going_traced (by decide) (by simp) 1
  ⟨.anyMethod [c!"a", c!"b"], tr 1 .next⟩ rfl (.inr ⟨_, rfl, by decide +kernel⟩)
/-- the middleware -/
example := C14_any_method_runs going_dispatched going_fair (by decide) going_traced (by decide) (by simp) 2
  ⟨.everywhere, tr 2 .next⟩ rfl (.inl rfl)
example := C17_no_panic going going_fair (by decide) (by
  intro e he mr s
  have hl : (logOfL going).map (·.handler) = [tr 0 .next, tr 1 .next, tr 2 .next] := rfl
  have : e.handler ∈ (logOfL going).map (·.handler) := List.mem_map_of_mem he
  rw [hl] at this
  simp only [List.mem_cons, List.not_mem_nil, or_false] at this
  rcases this with h | h | h <;> rw [h] <;> simp [tr])
end

/-! ### Queries -/

example := C18_decode_encode c!"a%b" c!"a%25%62" (.lit (by decide) (.pct (x := 2) (y := 5) (by decide +kernel) (by decide +kernel) (by decide)
  (.pct (x := 6) (y := 2) (by decide +kernel) (by decide +kernel) (by decide) .nil)))
example := C18_encoding_exists c!"ÿ&=%" (by decide)
example := C20_last_value true [c!"a=1", c!"", c!"b", c!"a=%32"] (by decide) (by decide)
example := C21_inner_pairs_partial .default c!"p" c!"a=1" c!"c=3" [c!"b=2", c!"b=4"] (by decide) (by decide) (by decide)
example := C22_extended_query false [c!"a[]=1", c!"b[x]=1", c!"a[]=2", c!"b=3"] (by decide) (by decide)
example := C22_accessors false [c!"a[]=1", c!"b[x]=1", c!"a[]=2", c!"b=3"] (by decide) (by decide)

/-! ### Reading requests -/

/-- a POST whose body arrives in two parts -/
def post : Sock := ⟨[utf8 c!"POST /a HTTP/1.1\r\nHost: x\r\nContent-Length: 4\r\n\r\nab", utf8 c!"cdGET"], .silent⟩
/-- the same, byte by byte -/
def postSlow : Sock := ServerExample.slowly post.bytes

example := C25_segmentation post postSlow (ServerExample.slowly_bytes _).symm rfl

def postHeaders : Headers :=
  ⟨[(c!"host", c!"x"), (c!"content-length", c!"4")], [⟨c!"Host", c!"x"⟩, ⟨c!"Content-Length", c!"4"⟩]⟩
def postLine : RequestLine := ⟨.post, [c!"a"], .http11⟩
theorem post_head : readHead post = .ok (.head c!"Host: x\r\nContent-Length: 4" c!"POST /a HTTP/1.1" (utf8 c!"ab")
    ⟨[utf8 c!"cdGET"], .silent⟩) := by rfl
theorem post_declares : DeclaredLength postHeaders.get 4 :=
  .inl ⟨c!"4", by decide +kernel, (parseU64_iff _ _).1 (by decide +kernel)⟩

example := C26_body_partial .default (fun _ => true) post (utf8 c!"POST /a HTTP/1.1\r\nHost: x\r\nContent-Length: 4")
  (utf8 c!"abcdGET") _ _ _ _ postHeaders postLine ⟨postLine, postHeaders, utf8 c!"abcd", []⟩ 4
  (by decide +kernel) post_head (by decide +kernel) post_declares (by decide)
/-- nothing after the body -/
def only : Sock := ⟨[utf8 c!"POST /a HTTP/1.1\r\nHost: x\r\nContent-Length: 4\r\n\r\nab", utf8 c!"cd"], .silent⟩
example := C26_body_no_trailing_partial .default (fun _ => true) only
  (utf8 c!"POST /a HTTP/1.1\r\nHost: x\r\nContent-Length: 4") (utf8 c!"abcd") _ _ (utf8 c!"ab") ⟨[utf8 c!"cd"], .silent⟩
  postHeaders postLine ⟨postLine, postHeaders, utf8 c!"abcd", []⟩ 4 (by decide +kernel)
  (show readHead only = .ok (.head c!"Host: x\r\nContent-Length: 4" c!"POST /a HTTP/1.1" _ _) by rfl)
  (by decide +kernel) post_declares (by decide)
example := C26_body_read .default (fun _ => true) postHeaders postLine (utf8 c!"ab") ⟨[utf8 c!"cdGET"], .silent⟩ 4
  post_declares (by decide) (fun _ _ => rfl) (by decide) (by decide)
example := C26_body_overrun .default (fun _ => true) postHeaders postLine (utf8 c!"abcdGET") ⟨[], .silent⟩ 4
  post_declares (by decide) (by decide)

/-! ### Header lines -/

def block : List Str := [c!"Host: x", c!"A:1", c!"a: 2"]
example := C27_header_map true block (by decide) (by decide +kernel)
  ⟨[(c!"host", c!"x"), (c!"a", c!"1, 2")], [⟨c!"Host", c!"x"⟩, ⟨c!"A", c!"1"⟩, ⟨c!"a", c!"2"⟩]⟩ (by decide +kernel)
example := C27_accepts true block (by decide) (by decide +kernel) [⟨c!"Host", c!"x"⟩, ⟨c!"A", c!"1"⟩, ⟨c!"a", c!"2"⟩]
  rfl (by
    intro i line hd h1 h2
    match i, h1, h2 with
    | 0, h1, h2 =>
      simp [block] at h1 h2; subst h1 h2
      exact ⟨c!" ", rfl, by decide, by decide, by decide, by simp; decide, by decide⟩
    | 1, h1, h2 =>
      simp [block] at h1 h2; subst h1 h2
      exact ⟨[], rfl, by decide, by decide, by decide, by simp; decide, by decide⟩
    | 2, h1, h2 =>
      simp [block] at h1 h2; subst h1 h2
      exact ⟨c!" ", rfl, by decide, by decide, by decide, by simp; decide, by decide⟩
    | i + 3, h1, h2 => simp [block] at h1)
/-- a line without a colon -/
example := C27_refuses false [c!"A:1", c!"bad"] (by decide +kernel) c!"bad" (by decide) (by
  rintro n v ⟨ws, h, -⟩
  have : ':' ∈ c!"bad" := by rw [h]; simp
  revert this; decide)
example := C28_wellformed_partial c!"X-a: b" ⟨c!"X-a", c!"b"⟩ (by decide +kernel)
example := C29_roundtrip true c!"BREW" c!"1.1" [[], c!"a", c!"..", c!"b"] (by decide) (by decide) (by decide)
  (by decide) (by decide +kernel)
example := C29_panics false [c!"GET", c!"/a/../..", c!"HTTP/1.1"] (by decide) (by decide)
example := C31_keep_alive [c!"timeout=5", c!" max=10", c!"timeout=x", c!"timeout=7"] (by decide) (by decide)

/-! ### Serving -/

/-- no Host -/
theorem reads11 : Reads Features.default (fun _ => true) (sends c!"GET /a HTTP/1.1\r\nA: b\r\n\r\n")
    ⟨⟨.get, [c!"a"], .http11⟩, ⟨[(c!"a", c!"b")], [⟨c!"A", c!"b"⟩]⟩, [], []⟩ :=
  ⟨c!"A: b", c!"GET /a HTTP/1.1", [], ⟨[], .eof⟩, ⟨[(c!"a", c!"b")], [⟨c!"A", c!"b"⟩]⟩,
    ⟨.get, [c!"a"], .http11⟩, by rfl, by decide +kernel, by decide +kernel, by decide +kernel⟩
example := C32_refused empty () _ _ reads11 rfl (by decide +kernel) (by decide)
theorem readsBrew : Reads Features.default (fun _ => true) (sends c!"BREW /a HTTP/1.1\r\nhOsT: b\r\n\r\n")
    ⟨⟨.none, [c!"a"], .http11⟩, ⟨[(c!"host", c!"b")], [⟨c!"hOsT", c!"b"⟩]⟩, [], []⟩ :=
  ⟨c!"hOsT: b", c!"BREW /a HTTP/1.1", [], ⟨[], .eof⟩, ⟨[(c!"host", c!"b")], [⟨c!"hOsT", c!"b"⟩]⟩,
    ⟨.none, [c!"a"], .http11⟩, by rfl, by decide +kernel, by decide +kernel, by decide +kernel⟩
example := C33_unknown_method empty () _ _ readsBrew (.inr ⟨_, List.mem_singleton.2 rfl, by decide +kernel⟩) rfl (by decide)
theorem readsGet : Reads Features.default (fun _ => true) (sends c!"GET /a HTTP/1.1\r\nHost: b\r\n\r\n")
    ⟨⟨.get, [c!"a"], .http11⟩, ⟨[(c!"host", c!"b")], [⟨c!"Host", c!"b"⟩]⟩, [], []⟩ :=
  ⟨c!"Host: b", c!"GET /a HTTP/1.1", [], ⟨[], .eof⟩, ⟨[(c!"host", c!"b")], [⟨c!"Host", c!"b"⟩]⟩,
    ⟨.get, [c!"a"], .http11⟩, by rfl, by decide +kernel, by decide +kernel, by decide +kernel⟩

/-- a handler that sends a text with a header -/
def hello : Closure (Unit × Response) := fun _ st =>
  ((st.2.set c!"X-A" c!"1").send Unicode.asciiOnly 0 (utf8 c!"hi")).bind fun r => .ok (((), r), .stop)
/-- its response -/
def helloResponse : Response :=
  match (Response.newEmpty.set c!"X-A" c!"1").send Unicode.asciiOnly 0 (utf8 c!"hi") with
  | .ok r => r
  | .panic => Response.newEmpty
theorem hello_headers : helloResponse.headers = [(c!"X-A", c!"1"), (c!"Content-Length", c!"2"),
    (c!"Date", c!"Thu, 01 Jan 1970 00:00:00 GMT"), (c!"Content-Type", c!"text/html")] := by decide +kernel

/-- headers, checked one by one -/
theorem good_all (hs : List (Str × Str))
    (h : hs.all (fun x => x.1 ≠ [] ∧ ':' ∉ x.1 ∧ '\r' ∉ x.1 ∧ '\r' ∉ x.2 ∧ (x.2.head?.map fun c => decide (isBlank c)) ≠ some true) = true) :
    ∀ k v, (k, v) ∈ hs → GoodHeader k v := by
  intro k v hm
  have := List.all_eq_true.1 h _ hm
  simp only [decide_eq_true_eq] at this
  obtain ⟨h1, h2, h3, h4, h5⟩ := this
  exact ⟨h1, h2, h3, h4, fun c hc hb => h5 (by rw [hc]; simp [hb])⟩

theorem hello_writable : Writable Unicode.asciiOnly helloResponse where
  version := by decide +kernel
  phrase := by decide +kernel
  headers := by rw [hello_headers]; exact good_all _ (by decide +kernel)
  cookies := by
    have : helloResponse.cookies = [] := by decide +kernel
    simp [this]
theorem hello_memory : InMemory helloResponse := by
  intro b
  have : helloResponse.body.getReader = .cursor (utf8 c!"hi") := by decide +kernel
  rw [this]; simp

example := C34_dispatch (demo hello) () _ _ readsGet (.inr ⟨_, List.mem_singleton.2 rfl, by decide +kernel⟩) (by decide)
theorem hello_run : Router.run true (demo hello).router
    ⟨⟨.get, [c!"a"], .http11⟩, ⟨[(c!"host", c!"b")], [⟨c!"Host", c!"b"⟩]⟩, [], []⟩ ((), Response.newEmpty) =
    .ok ((), helloResponse) := by decide +kernel
example := C34_client_partial (demo hello) () _ _ readsGet (.inr ⟨_, List.mem_singleton.2 rfl, by decide +kernel⟩)
  (by decide) () helloResponse hello_run (by decide +kernel) hello_writable (.inr (by decide +kernel)) hello_memory

theorem headDeclares_of {f : Bool} {head : Bytes} {text line hdrs : Str} {H : Headers} {n : Nat} (h1 : head = utf8 text)
    (h2 : FirstSplit text crlf line hdrs) (h3 : Headers.parse f hdrs = .ok (some H)) (h4 : DeclaredLength H.get n) :
    HeadDeclares f head n := by
  intro text' line' hdrs' hs g1 g2 g3
  cases utf8_injective (h1.symm.trans g1)
  obtain ⟨-, rfl⟩ := h2.unique g2
  obtain ⟨H', e1, -, e3⟩ := Headers.parse_block g3
  rw [h3] at e1
  cases e1
  rwa [funext e3] at h4

/-- the bytes after the body do not matter, nor how the body arrives -/
example : empty.serve () post = empty.serve () only :=
  C35_first_request_partial empty () post only (utf8 c!"POST /a HTTP/1.1\r\nHost: x\r\nContent-Length: 4")
    (utf8 c!"abcdGET") (utf8 c!"abcd") 4 (by decide +kernel) (by decide +kernel)
    (headDeclares_of (text := c!"POST /a HTTP/1.1\r\nHost: x\r\nContent-Length: 4") (line := c!"POST /a HTTP/1.1")
      (hdrs := c!"Host: x\r\nContent-Length: 4") (H := postHeaders) rfl (by decide +kernel) (by decide +kernel)
      post_declares)
    (by decide) (by decide) (by decide +kernel) (by decide) (fun _ _ => rfl)
    (.inr ⟨⟨_, readUpTo_first (by decide) (by decide +kernel) (by decide +kernel), by decide +kernel⟩,
      _, readUpTo_first (by decide) (by decide +kernel) (by decide +kernel), by decide +kernel⟩)

/-! ### Writing responses -/

example := C36_roundtrip_partial Unicode.asciiOnly true MapOrder.id helloResponse hello_writable (.inr (by decide +kernel))
  hello_memory

/-- a cookie and a body that begins with CRLF: the client takes the rest for the body -/
def crlfResponse : Response :=
  { Response.newFromSlice (utf8 c!"\r\nhi") with cookies := [⟨c!"a", c!"b", []⟩] }
theorem crlf_writable : Writable Unicode.asciiOnly crlfResponse := by
  refine ⟨by decide +kernel, by decide +kernel, ?_, ?_⟩
  · intro k v h; exact absurd h List.not_mem_nil
  · exact C36_example_writable.cookies
example := C36_cookies_break Unicode.asciiOnly MapOrder.id crlfResponse crlf_writable (by decide +kernel)
  (by intro b hb; exact absurd hb (by simp [crlfResponse, Response.newFromSlice, ResBody.getReader]))
  ⟨c!"1.1", c!"200", c!"OK", [(c!"Set-Cookie", c!"a=b")], utf8 c!"hi"⟩
  ⟨c!"HTTP/1.1 200 OK", [c!"Set-Cookie: a=b"], by decide +kernel, by decide +kernel,
    ⟨rfl, by decide, by decide⟩,
    .cons ⟨c!" ", rfl, by decide, by decide, by decide, by intro c hc; cases hc; decide, by decide⟩ .nil⟩

/-- a handler's use of the response -/
def ops : List ResOp :=
  [.set c!"A" c!"1", .send 0 (utf8 c!"hi"), .withType c!"text/css", .set c!"B" c!"2", .removeHeader c!"A", .set c!"b" c!"3"]
/-- what comes of it -/
def opsResponse : Response :=
  match execOps Unicode.asciiOnly Response.newEmpty ops with
  | .ok r => r
  | .panic => Response.newEmpty
theorem ops_exec : execOps Unicode.asciiOnly Response.newEmpty ops = .ok opsResponse := by decide +kernel
theorem uniq_empty : HMap.Uniq Response.newEmpty.headers := List.nodup_nil

/-- the type that was set after `send` -/
example := C37_read_back Unicode.asciiOnly (ops.take 2) (ops.drop 3) (.withType c!"text/css") c!"Content-Type" c!"text/css"
  Response.newEmpty opsResponse uniq_empty ops_exec (by decide) (by decide)
example := C37_frame Unicode.asciiOnly ops c!"C" Response.newEmpty opsResponse uniq_empty ops_exec (by decide)
example := C37_removed Unicode.asciiOnly (ops.take 4) (ops.drop 5) c!"A" Response.newEmpty opsResponse uniq_empty ops_exec
  (by decide)
example := C37_one_entry Unicode.asciiOnly ops opsResponse ops_exec
example := C37_case_sensitive opsResponse c!"b" c!"B" c!"4" (by decide)

end Octane.Cases
