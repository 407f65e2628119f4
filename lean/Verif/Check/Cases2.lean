import Verif.Check.Requests
import Verif.Check.Cases1
import Verif.Props.Tables
import Verif.Props.Time
import Verif.Props.Listen
import Verif.Props.Config
import Verif.Props.Exact
import Verif.Props.Registry
import Verif.Props.Quoted
import Verif.Props.Startup
/-
Cases for C38 – C66, as in `Check/Cases1.lean`.
-/
namespace Octane.Cases
open Octane Spec

/-! ### Lengths, files, redirects -/

example := C38_length_partial Unicode.asciiOnly (ops.take 1) (ops.drop 2) 0 (utf8 c!"hi") Response.newEmpty opsResponse
  uniq_empty ops_exec (by decide)
def quiet : List ResOp := [.set c!"A" c!"1", .status (.named 25), .redirect c!"/b"]
example := C38_no_body_partial Unicode.asciiOnly quiet
  ⟨.none, .named 16, none, c!"1.1", [(c!"A", c!"1"), (c!"Location", c!"/b")], none, []⟩ (by decide +kernel) (by decide)

/-- a file system with one file -/
def disk (p : Str) : FileAt := if p = c!"a.css" then .regular (utf8 c!"body{}") 6 else .cannotOpen
def fileOps : List ResOp := [.set c!"A" c!"1", .sendFile disk c!"a.css", .set c!"B" c!"2", .defaultHeaders 0]
def fileResponse : Response :=
  match execOps Unicode.asciiOnly Response.newEmpty fileOps with
  | .ok r => r
  | .panic => Response.newEmpty
example := C38_file Unicode.asciiOnly (fileOps.take 1) (fileOps.drop 2) disk c!"a.css" (utf8 c!"body{}") 6
  (by decide +kernel) Response.newEmpty (Response.newEmpty.set c!"A" c!"1") fileResponse uniq_empty (by decide +kernel)
  (by decide +kernel) (by decide)
def sentFile : Response :=
  match Response.newEmpty.sendFile Unicode.asciiOnly disk c!"a.css" with
  | .ok r => r.1
  | .panic => Response.newEmpty
theorem sent_file : Response.newEmpty.sendFile Unicode.asciiOnly disk c!"a.css" = .ok (sentFile, true) := by decide +kernel
example := C39_nothing_delivered Unicode.asciiOnly disk c!"a.css" Response.newEmpty sentFile sent_file
example := C39_empty_file_partial Unicode.asciiOnly disk c!"a.css" (utf8 c!"body{}") 6 Response.newEmpty sentFile
  (by decide +kernel) sent_file
/-- a text, then a page -/
def sent1 : Response :=
  match (Response.newEmpty.withType c!"text/plain").send Unicode.asciiOnly 0 (utf8 c!"hi") with
  | .ok r => r
  | .panic => Response.newEmpty
def sent2 : Response :=
  match sent1.send Unicode.asciiOnly 1 (utf8 c!"<p>") with
  | .ok r => r
  | .panic => Response.newEmpty
example := C40_first_type_stays Unicode.asciiOnly (Response.newEmpty.withType c!"text/plain") sent1 sent2 0 1 (utf8 c!"hi")
  (utf8 c!"<p>") (by decide +kernel) (by decide +kernel)

def redirectOps : List ResOp := [.set c!"A" c!"1", .redirect c!"/b", .send 0 (utf8 c!"moved"), .set c!"B" c!"2"]
def redirected : Response :=
  match execOps Unicode.asciiOnly Response.newEmpty redirectOps with
  | .ok r => r
  | .panic => Response.newEmpty
theorem redirected_exec : execOps Unicode.asciiOnly Response.newEmpty redirectOps = .ok redirected := by decide +kernel
example := C41_redirect_state Unicode.asciiOnly (redirectOps.take 1) (redirectOps.drop 2) c!"/b" Response.newEmpty
  redirected uniq_empty redirected_exec (by decide) (by decide)
theorem redirected_writable : Writable Unicode.asciiOnly redirected where
  version := by decide +kernel
  phrase := by decide +kernel
  headers := good_all _ (by decide +kernel)
  cookies := by
    have : redirected.cookies = [] := by decide +kernel
    simp [this]
theorem redirected_memory : InMemory redirected := by
  intro b
  have : redirected.body.getReader = .cursor (utf8 c!"moved") := by decide +kernel
  rw [this]; simp
example := C41_redirect_wire_partial Unicode.asciiOnly true MapOrder.id (redirectOps.take 1) (redirectOps.drop 2) c!"/b"
  Response.newEmpty redirected uniq_empty redirected_exec (by decide) (by decide) redirected_writable
  (.inr (by decide +kernel)) redirected_memory
/-- a handler that only redirects -/
def away : Closure (Unit × Response) := fun _ st => .ok (((), st.2.redirect c!"/b"), .stop)
example := C41_redirect_only_is_404 (demo away) () () _ _ readsGet
  (.inr ⟨_, List.mem_singleton.2 rfl, by decide +kernel⟩) (by decide) [.redirect c!"/b"]
  (Response.newEmpty.redirect c!"/b") rfl (by decide) (by decide +kernel) (by decide)

/-! ### Tables and dates -/

example := C42_distinct 5 5 rfl
example := C42_custom Unicode.asciiOnly { Response.newEmpty with statusCode := .other 299 c!"fine" } 299 c!"fine" rfl
example := C43_by_extension Unicode.asciiOnly c!"/a/b.tar.CSS/" c!"b.tar.CSS" c!"CSS"
  ⟨[[], c!"a"], [[]], rfl, by decide, by decide, by decide, by decide, by decide⟩ ⟨c!"b.tar", by decide, rfl, by decide⟩
example := C45_date_denotes_instant 1598918400 (by decide) (by decide)
example := C46_september 1598918400 (by decide) (by decide) ⟨2020, 8, 1, 0, 0, 0⟩ (by unfold Civil.Valid; decide)
  (by decide +kernel) (by decide) rfl

/-! ### Connections -/

def evs : List (Event Unit) := [.connect false halves, .connect true request, .poll 0]
example := C48_progress (demo sayHi) () true true true evs (by decide +kernel) 0 _ rfl trivial
example := C49_exact (demo sayHi) () true true true evs (by decide +kernel)
example := C49_no_error_partial (demo sayHi) () evs (by simp [evs]) (by decide +kernel) 1 true request rfl
example := C50_worker_threads_dropped [.withConfig { OctaneConfig.new with workerThreads := some 4 }] (by simp)

/-! ### Cookies -/

theorem jar_good : ∀ nv ∈ [(c!"a", c!"1=2"), (c!"b", c!"")], GoodCookie nv := by
  intro nv h
  simp only [List.mem_cons, List.not_mem_nil, or_false] at h
  rcases h with rfl | rfl <;>
    exact ⟨by decide, by decide, by decide, by decide, (trimmed_iff _ _).2 (by decide +kernel), (trimmed_iff _ _).2 (by decide +kernel)⟩
example := C51_cookies [(c!"a", c!"1=2"), (c!"b", c!"")] (by decide) jar_good

def withCookies : WireReq :=
  ⟨c!"GET", [[], c!"a"], c!"1.1", [(c!"Host", c!"x"), (c!"Cookie", c!"a=1=2; b=")], []⟩
theorem withCookies_good : withCookies.Good := by
  refine ⟨framed_of (by decide +kernel), ?_⟩
  intro v hv
  have : joined withCookies.headers c!"cookie" = some c!"a=1=2; b=" := by decide +kernel
  rw [this] at hv
  cases hv
  exact (Cookie.parse_ok _).1 ⟨[⟨c!"a", c!"1=2", []⟩, ⟨c!"b", [], []⟩], by decide +kernel⟩
example := C51_handlers_see .default (fun _ => true) withCookies withCookies_good (closed _) (closed_bytes _)
  (fun _ _ => rfl) (by decide) rfl [(c!"a", c!"1=2"), (c!"b", c!"")] (by decide) jar_good (by decide +kernel)
/-- a cookie without `=` -/
def badCookie : WireReq := ⟨c!"GET", [[], c!"a"], c!"1.1", [(c!"Host", c!"x"), (c!"Cookie", c!"a=1; b")], []⟩
example := C52_crash (demo hello) () badCookie (framed_of (by decide +kernel)) (closed _) (closed_bytes _) (fun _ _ => rfl)
  (by decide) rfl c!"a=1; b" (by decide +kernel) (by
    rw [← Cookie.parse_ok]
    rintro ⟨cs, h⟩
    have : Cookie.parse c!"a=1; b" = .panic := by decide +kernel
    rw [this] at h; cases h)

/-! ### Errors, HEAD -/

example := C55_clock_before_epoch Unicode.asciiOnly true MapOrder.id (-1) (.named 25) (by decide)
theorem hello_head : Router.run true (demo hello).router
    ⟨⟨.head, [c!"a"], .http10⟩, ⟨[(c!"a", c!"b")], [⟨c!"A", c!"b"⟩]⟩, [], []⟩ ((), Response.newEmpty) =
    .ok ((), helloResponse) := by decide +kernel
example := C56_body_follows (demo hello) () () _ _ helloResponse C56_reads (.inl (by decide)) rfl hello_head (by decide +kernel)
  hello_writable (.inr (by decide +kernel)) hello_memory
/-- a handler that sends nothing -/
def nothing : Closure (Unit × Response) := fun _ st =>
  (st.2.send Unicode.asciiOnly 0 []).bind fun r => .ok (((), r), .stop)
def nothingResponse : Response :=
  match Response.newEmpty.send Unicode.asciiOnly 0 [] with
  | .ok r => r
  | .panic => Response.newEmpty
theorem nothing_writable : Writable Unicode.asciiOnly nothingResponse where
  version := by decide +kernel
  phrase := by decide +kernel
  headers := good_all _ (by decide +kernel)
  cookies := by
    have : nothingResponse.cookies = [] := by decide +kernel
    simp [this]
theorem nothing_memory : InMemory nothingResponse := by
  intro b
  have : nothingResponse.body.getReader = .cursor [] := by decide +kernel
  rw [this]; simp
theorem nothing_head : Router.run true (demo nothing).router
    ⟨⟨.head, [c!"a"], .http10⟩, ⟨[(c!"a", c!"b")], [⟨c!"A", c!"b"⟩]⟩, [], []⟩ ((), Response.newEmpty) =
    .ok ((), nothingResponse) := by decide +kernel
example : ∃ out v, (demo nothing).serve () (sends c!"HEAD /a HTTP/1.0\r\nA: b\r\n\r\n") = .ok ((), out) ∧
    ClientParses out v ∧ v.body = [] := by
  obtain ⟨out, v, h1, h2, -⟩ := C56_body_follows (demo nothing) () () _ _ nothingResponse C56_reads (.inl (by decide)) rfl
    nothing_head (by decide +kernel) nothing_writable (.inr (by decide +kernel)) nothing_memory
  exact ⟨out, v, h1, h2, C56_empty_body_partial (demo nothing) () () _ _ nothingResponse C56_reads (.inl (by decide)) rfl
    nothing_head (by decide +kernel) nothing_writable (.inr (by decide +kernel)) nothing_memory (by decide +kernel) out v h1 h2⟩

/-! ### Macros -/

example := C58_pascal [c!"im", c!"a", c!"teapot"] (by decide)

/-- `x: A, y: M<B, 3>` -/
def fields : List FieldDecl := [⟨[], [], c!"x", [.ident c!"A"]⟩,
  ⟨[], [], c!"y", [.ident c!"M", .punct '<', .ident c!"B", .punct ',', .lit c!"3", .punct '>']⟩]
example := C59_named_iff fields true ⟨by decide, by
  intro f hf
  simp only [fields, List.mem_cons, List.not_mem_nil, or_false] at hf
  rcases hf with rfl | rfl <;> exact ⟨.priv, by decide⟩⟩

/-- `T: A, U` -/
def params : List GenParam := [⟨.type, c!"T", [.punct ':', .ident c!"A"]⟩, ⟨.type, c!"U", []⟩]
theorem realIdents_of (ts : List Tok) (h : ∀ c ∈ ['<', '>', ','], Tok.ident [c] ∉ ts) : RealIdents ts := by
  rintro s c hs hc rfl
  exact h c hc hs
theorem params_ok : ParamsOk params := by
  intro p hp
  simp only [params, List.mem_cons, List.not_mem_nil, or_false] at hp
  rcases hp with rfl | rfl
  · exact ⟨.tok (by simp) (by simp) (by simp) (.tok (by simp) (by simp) (by simp) .nil), realIdents_of _ (by simp [GenParam.toks])⟩
  · exact ⟨.nil, realIdents_of _ (by simp [GenParam.toks])⟩
/-- `where U: B` -/
def clause : List Tok := [.ident c!"U", .punct ':', .ident c!"B"]
theorem clause_plain : ∀ l, some clause = some l → PlainWhere l ∧ RealIdents l := by
  rintro l ⟨⟩
  exact ⟨⟨by simp [clause], by simp [clause], by simp [clause], by simp [clause]⟩, realIdents_of _ (by simp [clause])⟩
example := C60_iff [.ident c!"pub"] c!"S" true params (some clause) [.ident c!"x"] (by simp) params_ok clause_plain
  (by decide)
example := C60_header_partial [.ident c!"pub"] c!"S" true params (some clause) [.ident c!"x"] (by simp) params_ok
  clause_plain (by decide)
example := C61_registered_partial 25 (by decide)
example := C62_read_back_partial Unicode.asciiOnly Response.newEmpty c!"my \"x\".png" (by decide) (by decide)
example := C62_injective Unicode.asciiOnly Response.newEmpty (Response.newEmpty.set c!"A" c!"b") c!"a\"b" c!"a\"b"
  (by decide +kernel)
theorem literal : RustLiteral c!"\"a/b\"" c!"a/b" :=
  ⟨c!"a/b", rfl, .text (by decide) (by decide) (by decide) (.text (by decide) (by decide) (by decide)
    (.text (by decide) (by decide) (by decide) .nil))⟩
example := C63_iff Unicode.asciiOnly _ _ literal
example := C63_expands_partial Unicode.asciiOnly c!"/srv/" (fun p => p == c!"/srv/a/b") _ _ [] literal (by decide)

/-! ### Starting -/

section
open Boot

example := C64_too_early ⟨8080, 443, true, .ok true⟩ [.main true, .tls true] (.main true)
  (by unfold Spec.CallsBack; decide)
theorem differ (cfg : BootCfg) (h : cfg.port ≠ cfg.sslPort) : PortsDiffer cfg := fun _ h' => absurd h' h
example := C65_independent_partial ⟨80, 443, true, .panic⟩ ⟨80, 8443, false, .ok true⟩ (differ _ (by decide))
  (differ _ (by decide)) (.tls true :: List.replicate 8 (.main true)) (List.replicate 8 (.main true) ++ [.tls false]) rfl
example := C65_opens_partial ⟨80, 443, true, .panic⟩ (differ _ (by decide)) (.tls true :: List.replicate 9 (.main true))
  [true] rfl
example := C65_error_iff_partial ⟨80, 443, true, .panic⟩ (differ _ (by decide)) [.main true, .tls true, .main true, .main false]
example := C65_never_both ⟨80, 80, true, .ok true⟩ rfl (by decide) (List.replicate 8 (.main true) ++ List.replicate 7 (.tls true))
example := C65_after_tls ⟨80, 80, true, .ok false⟩ (.main true :: List.replicate 7 (.tls true)) (by decide) (by decide)

/-- key and certificate, and whether they fit -/
def tlsLib (fit : Bool) : TlsLib Nat Nat :=
  ⟨fun p => if p = c!"k" then some [1] else if p = c!"c" then some [2] else none,
    fun b => if b = [1] then some [7, 8] else none, fun b => if b = [2] then some [5] else none, fun _ k => fit && k == 7⟩
def tlsConfig : OctaneConfig := ⟨none, ⟨c!"k", c!"c", 443⟩, none⟩
theorem misfit : ∀ chain key, ¬ TlsFiles (tlsLib false) tlsConfig chain key := by
  rintro chain key ⟨kb, cb, ks, -, -, -, -, h⟩
  simp [tlsLib] at h
example := C66_error_partial (tlsLib false) tlsConfig (by
  intro kb h
  have : kb = [1] := by
    have h' : (tlsLib false).file tlsConfig.ssl.key = some [1] := by decide +kernel
    rw [h'] at h; exact (Option.some.inj h).symm
  subst this; decide) misfit
example := C66_never_accepts (tlsLib false) tlsConfig 80 true misfit (.main true :: List.replicate 7 (.tls true))
example := C66_task (tlsLib true) tlsConfig 80 _ rfl (differ _ (by decide)) (.main true :: List.replicate 7 (.tls true))
  ⟨true, by simp⟩
end

end Octane.Cases
