import Verif.Check.Cases3
import Verif.Props.Robust
import Verif.Props.QuerySize
import Verif.Props.Alone
import Verif.Props.Depth
import Verif.Props.Features
import Verif.Props.Work
import Verif.Props.Programs
import Verif.Props.Size
import Verif.Props.Open
import Verif.Props.Files
import Verif.Props.AnswerSize
import Verif.Props.JsonKeys
import Verif.Props.CookieLines
import Verif.Props.Spelling
import Verif.Props.TargetChars
import Verif.Props.CookieAttrs
import Verif.Props.TwoQueries
/-
Cases for C112 – C151, as in `Cases1`. No theorem depends on this file.
-/
namespace Octane.Cases
open Octane Spec Query

/-! ### Routes that are not there -/

section
open RobustExample TargetExample
example (router : Router (Unit × Response)) (hr : execL Router.new calls = .ok router) :
    ∃ bytes v, ({ empty with router } : Server Unit).serve () (closed RobustExample.post.bytes) = .ok ((), bytes) ∧
      ClientParses bytes v ∧ v.code = c!"404" ∧ ∀ t, (c!"Allow", t) ∉ v.headers :=
  C112_refused_partial { empty with router } calls (by simp [calls, FairL, Fair]) (by rw [log]; decide) hr
    RobustExample.post post_good _ (closed_bytes _) (fun _ _ => rfl) (by decide) .post (by decide +kernel)
    (by intro h; cases h) post_none () (by simp [empty])
end

/-! ### The size of queries -/

example := C113_decode c!"a%2Bb%20c" c!"a+b c" (by decide +kernel)
example := C113_query false c!"a=1&b=%C3%A4&a=2" [(c!"a", c!"2"), (c!"b", c!"Ã¤")] (by decide +kernel)
example := C113_extended false c!"a[]=1&b[x]=2&a[]=3" [(c!"a", .arr [c!"1", c!"3"]), (c!"b", .obj [(c!"x", c!"2")])]
  (by decide +kernel)
example := C113_request .default queriedRequest c!"/a/b?x[]=1&x[]=2&y=3" (by decide +kernel)

/-! ### Clients beside others -/

section
open ParallelExample ProcessExample AloneExample
example := C114_outcome (server AloneExample.counts) _ (setUp _) (fun _ => true) asksP (fun q _ => blind q)
example := C114_bytes (server AloneExample.counts) _ (setUp _) (fun _ => true) asksP (fun _ _ => rfl) (fun q _ => blind q)
end

/-! ### Depth, features, work -/

section
open DepthExample
example (r : Router Nat) (hr : execL Router.new calls = .ok r) :=
  C119_exact calls (by simp [calls, FairL, Fair]) r hr true .get (by decide) [c!"a", c!"q", c!"c"]
end

section
open FeaturesExample
theorem one_log : logOfL one = [⟨.on .get [c!"a"], says⟩] := by rfl
example : { server one with feat := { (server one).feat with faithful := false } }.serve () (asks c!"A: b") =
    (server one).serve () (asks c!"A: b") := C120_faithful _ _ _ (by decide +kernel)
example : { server one with feat := { (server one).feat with cookies := false } }.serve () (asks c!"Cookie: a=b") =
    (server one).serve () (asks c!"Cookie: a=b") :=
  C120_cookies one fair (by decide) _ (server_ok _ fair (by decide))
    (by rw [one_log]; intro e he; rw [List.mem_singleton.1 he]; exact noCookies) _ _ (by decide +kernel)
example (s : Sock) : { server one with feat := { (server one).feat with urlVariables := false } }.serve () s =
    (server one).serve () s :=
  C120_variables one fair (by decide) _ (server_ok _ fair (by decide))
    (by rw [one_log]; intro e he; rw [List.mem_singleton.1 he]; show ∀ s ∈ [c!"a"], s.head? ≠ some ':'; decide) _ _
example := C121_bound (server one) one fair (server_ok _ fair (by decide)) () WorkExample.sock
end

/-! ### The size of a router -/

section
open SizeExample
theorem size_made : ∃ r, execL Router.new calls = .ok r ∧ (∃ t, r.paths.get .get = some t) ∧
    (¬ ∃ t, r.paths.get .post = some t) := by
  obtain ⟨r, hr, -⟩ := C12_run_is_replay calls fair (by decide +kernel)
  have h : ∀ m b, sizes m = .ok b → (b.isSome ↔ ∃ t, r.paths.get m = some t) := by
    intro m b h
    simp only [sizes, hr, Res.bind_ok', Res.ok.injEq] at h
    subst h
    cases r.paths.get m <;> simp
  exact ⟨r, hr, (h .get (some (3, 2, 3)) (by decide +kernel)).1 rfl, fun ht =>
    absurd ((h .post none (by decide +kernel)).2 ht) (by simp)⟩

example : NamesL .get calls ∧ ¬ NamesL .post calls := by
  obtain ⟨r, hr, h1, h2⟩ := size_made
  exact ⟨(C126_trees calls fair r hr .get).1 h1, fun h => h2 ((C126_trees calls fair r hr .post).2 h)⟩
example (r : Router Unit) (hr : execL Router.new calls = .ok r) (t : PathNode (Closures Unit))
    (ht : r.paths.get .get = some t) :=
  And.intro (C126_nodes calls fair r hr .get t ht) (And.intro (C126_lists calls fair r hr .get t ht)
    (And.intro (C126_entries calls fair r hr .get t ht) (C126_bound calls fair r hr .get t ht)))
example (r : Router Unit) (hr : execL Router.new calls = .ok r) :=
  And.intro (C126_total calls fair r hr) (C126_total_bound calls fair r hr)
example (r r' : Router Unit) (hr : execL Router.new calls = .ok r)
    (hr' : execL Router.new (calls ++ [.route .delete c!"/.." h]) = .ok r') :=
  C126_refused calls fair .delete c!"/.." h (by decide +kernel) r r' hr hr'

example : (execLC Router.new calls).2 = placedL 0 calls ∧
    (execLC Router.new calls).2 ≤ (1 + nestingL calls) * ((logOfL calls).filter (·.routed)).length ∧
    (execLC Router.new calls).2 ≤ callCountL calls * callCountL calls ∧
    (execLC Router.new calls).2 ≤ (1 + 1) * callCountL calls :=
  ⟨C127_exact calls fair, C127_bound calls fair, C127_square calls fair,
    C127_linear_partial 1 calls fair (by decide +kernel)⟩
end

/-! ### Open connections -/

section
open ParallelExample OpenExample
example := C128_accepts (server fetchAdd) (fun _ => true) twoSilent false half rfl rfl
example (n : Nat) := C128_held (server fetchAdd) (fun _ => true) 0 2 false false mute mute_idle n
  [.poll 0, .finish 0, .write 0 7]
end

/-! ### Files -/

section
open FilesExample
/-- a file in the directory and one outside it -/
def secretFiles (secret : Bytes) (path : Str) : FileAt :=
  if path = c!"pub/a.html" then .regular (utf8 c!"hello") 5
  else if path = c!"key" ∨ path = c!"pub/../key" then .regular secret secret.length else .cannotOpen
theorem secret_same (a b : Bytes) (v : Str) (h : OneEntry v) :
    secretFiles a (c!"pub" ++ '/' :: v) = secretFiles b (c!"pub" ++ '/' :: v) := by
  have h1 : c!"pub" ++ '/' :: v ≠ c!"key" := by simp
  have h2 : c!"pub" ++ '/' :: v ≠ c!"pub/../key" := by
    intro e
    have : v = c!"../key" := by simpa using e
    exact h.2.1 (by rw [this]; decide)
  simp only [secretFiles, h1, h2, or_self, if_false]
example (a b : Bytes) : ∃ r r', execL Router.new (calls (secretFiles a)) = .ok r ∧
    execL Router.new (calls (secretFiles b)) = .ok r' ∧
    ∀ s, { empty with router := r' }.serve () s = { empty with router := r }.serve () s := by
  obtain ⟨r, hr, -⟩ := C12_run_is_replay (calls (secretFiles a))
    (by simp [calls, FairL, Fair]) (by simp [calls, logOfL, logOf]; split <;> simp)
  obtain ⟨r', h1, h2⟩ := C132_files { empty with router := r } [] [] .get c!"/files/:name" c!"pub" c!"name"
    _ _ (secret_same a b) trivial (by simp [logOfL, logOf]; split <;> simp) hr
  exact ⟨r, r', hr, h1, fun s => h2 () s⟩

/-- handlers that differ only for a variable with a slash in it -/
def differs (f : Closure (Unit × Response)) : Closure (Unit × Response) := fun mr st =>
  if HMap.get mr.vars c!"x" = some c!"a/b" then f mr st else .ok (st, .next)
def differsCalls (f : Closure (Unit × Response)) : List (Call (Unit × Response)) := [.route .get c!"/:x" (differs f)]
theorem differs_log (f : Closure (Unit × Response)) : logOfL (differsCalls f) = [⟨.on .get [c!":x"], differs f⟩] := by
  have : Path.parse c!"/:x" = some [c!":x"] := by decide +kernel
  simp [differsCalls, logOfL, logOf, this, Verb.target, Verb.method]
example (f g : Closure (Unit × Response)) : ∃ r r', execL Router.new (differsCalls f) = .ok r ∧
    execL Router.new (differsCalls g) = .ok r' ∧
    ∀ s, { empty with router := r' }.serve () s = { empty with router := r }.serve () s := by
  have fair : ∀ f, FairL (differsCalls f) := fun f => by simp [differsCalls, FairL, Fair]
  obtain ⟨r, hr, -⟩ := C12_run_is_replay (differsCalls f) (fair f) (by rw [differs_log]; simp)
  obtain ⟨r', h1, h2⟩ := C132_same { empty with router := r } (differsCalls f) (differsCalls g) (by
    rw [differs_log, differs_log]
    refine .cons ⟨rfl, fun req vars st hv => ?_⟩ .nil
    have : HMap.get vars c!"x" ≠ some c!"a/b" := fun h => (hv _ _ h).2.1 (by decide)
    simp only [differs, if_neg this]) (fair f) (fair g) (by rw [differs_log]; simp) hr
  exact ⟨r, r', hr, h1, fun s => h2 () s⟩
end

/-! ### The size of answers -/

example := C140_pages Unicode.asciiOnly true MapOrder.id 0 .notFound (by decide) pageBytes page_bytes

/-- a body longer than any page -/
def long : Closure (Unit × Response) := fun _ st => .ok ((st.1, Response.newFromSlice (List.replicate 400 65)), .stop)
def longBytes : Bytes := sendData ((Response.newFromSlice (List.replicate 400 65)).getData Unicode.asciiOnly true MapOrder.id)
example := C140_made (demo long) () () (sends c!"GET /a HTTP/1.1\r\nHost: b\r\n\r\n") longBytes (by decide +kernel) (by decide +kernel)

/-! ### Texts -/

section
open ProgramsExample
/-- a text for every request and one for `/a` -/
def texts : List Text := [⟨.everywhere, [1], .next⟩, ⟨.on .get [c!"a"], [2], .next⟩]
def textCalls : List (Call (Unit × Response)) := scriptCalls (texts.map (·.script))
theorem text_log : logOfL textCalls = texts.map fun x => x.script.reg empty.U empty.clock := by
  have : Path.parse (Path.display [c!"a"]) = some [c!"a"] := by decide +kernel
  simp [textCalls, texts, Text.script, scriptCalls, logOfL, logOf, this, Verb.target, Verb.method, Script.reg, empty]
example : ∃ r, execL Router.new textCalls = .ok r ∧
    Shows { empty with router := r } () (sock c!"GET" [c!"a"]) [2] ∧
    Shows { empty with router := r } () (sock c!"GET" [c!"b"]) [1] := by
  have hf : FairL textCalls := by simp [textCalls, texts, Text.script, scriptCalls, FairL, Fair]
  have hn : (logOfL textCalls).length < 2 ^ 64 := by rw [text_log]; decide
  obtain ⟨r, hr⟩ := made textCalls hf hn
  refine ⟨r, hr, ?_, ?_⟩
  · exact C123_texts textCalls hf hn { empty with router := r } hr texts text_log () _ rfl (by decide +kernel) (fun _ => rfl) clock
      _ 0 (asked_in c!"GET" [c!"a"] (by decide) (by decide)) (host _ _) .get (by decide)
  · exact C123_texts textCalls hf hn { empty with router := r } hr texts text_log () _ rfl (by decide +kernel) (fun _ => rfl) clock
      _ 0 (asked_in c!"GET" [c!"b"] (by decide) (by decide)) (host _ _) .get (by decide)
end

/-! ### JSON -/

example := C141_written [c!"a", c!"b"] (by decide) (fun _ (j : Str) => some (.other j)) id
  (.object [(c!"a", .other c!"a"), (c!"b", .other c!"b")]) rfl
example := C141_read [c!"a", c!"b"] (by decide) (fun _ j => some j) [(c!"b", .other c!"1"), (c!"a", .other c!"2")] (by decide)
  [(c!"a", .other c!"2"), (c!"b", .other c!"1")]
section
open JsonKeysExample
example := C141_iff mixed true mixed_plain ⟨by decide +kernel, by decide +kernel⟩ (fun _ (j : Str) => some (.other j)) id
  (.object [(c!"id", .other c!"id"), (c!"r#type", .other c!"r#type")]) rfl
end

/-! ### Cookies in several lines -/

section
open CookieLinesExample
example := C142_iff .default (fun _ => true) twice twice_good (closed _) (closed_bytes _) (fun _ _ => rfl) (by decide) rfl
  lines (by decide) (by decide) lines_good lines_of
end

/-! ### Names of headers -/

section
open AnswerExample SpellingExample
example : ∃ bytes v, (demo (doing fun _ => SpellingExample.small)).serve () AnswerExample.request = .ok ((), bytes) ∧
    ClientParses bytes v ∧ (Once v.headers ↔ OneSpelling fun k => (smallLeft.get k).isSome) :=
  C143_exact (demo (doing fun _ => SpellingExample.small)) () () AnswerExample.request asked smallLeft reads (.inl (by decide))
    (by decide) (demo_run _ _ small_left) (by show List.Nodup _; decide +kernel) (by simp [smallLeft]) small_writable (.inr rfl)
example : ∃ v, ClientParses pageBytes v ∧ Once v.headers := by
  obtain ⟨v, h, -⟩ := page_parses
  exact ⟨v, h, C143_pages _ _ _ _ _ _ page_bytes v h⟩
end

/-! ### Targets, attributes, queries -/

section
open TargetCharsExample
example := C147_iff odd odd_good (by decide) (closed _) (closed_bytes _) (by decide)
end
section
open CookieAttrsExample
example := C150_iff odd secure
end
example := C150_cookies _ _ _ _ queried_reads
example := C151_request .default ⟨⟨.get, [c!"a", c!"b?x=1&y=2"], .http11⟩, ⟨[], []⟩, [], []⟩ [c!"a/b?x=1", c!"y=2/"] (by decide)
  (by decide +kernel) (by decide +kernel)

end Octane.Cases
