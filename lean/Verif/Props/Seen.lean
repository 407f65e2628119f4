import Verif.Props.CookieHead
import Verif.Props.Sent
/-
C34, C36, C41 and C91, exactly: which of the answers that can be written reach the client as they were made.
-/
namespace Octane
open Spec

/-- the response with the bytes that its body delivers in place of the body -/
def onWire (r : Response) : Response := { r with body := .unsized (.cursor (copy r.body.getReader).1) }

theorem onWire_bytes (U : Unicode) (cookies : Bool) (ord : MapOrder) (r : Response) :
    sendData (r.getData U cookies ord) = sendData ((onWire r).getData U cookies ord) := by
  unfold sendData Response.getData onWire
  simp only [ResBody.getReader, copy_cursor]
  rfl

theorem onWire_writable {U : Unicode} {r : Response} (hw : Writable U r) : Writable U (onWire r) :=
  ⟨hw.version, hw.phrase, hw.headers, hw.cookies⟩

theorem onWire_inMemory (r : Response) : InMemory (onWire r) := by intro b; simp [onWire, ResBody.getReader]

/-- a file delivers nothing -/
theorem copy_anyFile (b : Option Bytes) : (copy (.file b)).1 = [] := by
  cases b with
  | none => simp [copy, copyLoop, Reader.pollRead]
  | some b => rw [copy_file]

/-- what a body delivers is what it stands for exactly if it is in memory or stands for nothing -/
theorem copy_iff (r : Response) : (copy r.body.getReader).1 = bodyBytes r ↔ (InMemory r ∨ bodyBytes r = []) := by
  by_cases hm : InMemory r
  · exact ⟨fun _ => .inl hm, fun _ => copy_inMemory hm⟩
  · obtain ⟨b, hb⟩ : ∃ b, r.body.getReader = .file b := by
      apply Classical.byContradiction
      intro h
      exact hm fun b hb => h ⟨b, hb⟩
    rw [hb, copy_anyFile]
    exact ⟨fun h => .inr h.symm, fun h => (h.resolve_left hm).symm⟩

/-- C36, exactly: of the answers that can be written, those reach the client as they were made that have no cookie (or
the feature is off) and whose body is in memory or an empty file. -/
theorem C36_iff (U : Unicode) (cookies : Bool) (ord : MapOrder) (r : Response) (hw : Writable U r) :
    (∃ v, ClientParses (sendData (r.getData U cookies ord)) v ∧ SeenAs U cookies r v) ↔
      (cookies = false ∨ r.cookies = []) ∧ (InMemory r ∨ bodyBytes r = []) := by
  rw [onWire_bytes, ← copy_iff]
  constructor
  · rintro ⟨v, hv, -, -, -, -, hb⟩
    by_cases hc : cookies = false ∨ r.cookies = []
    · obtain ⟨v', h1, ⟨-, -, -, -, h2⟩, h3⟩ := C36_roundtrip_partial U cookies ord (onWire r) (onWire_writable hw) hc
        (onWire_inMemory r)
      rw [← h3 v hv] at h2
      exact ⟨hc, h2.symm.trans hb⟩
    · exfalso
      have hct : cookies = true := by
        cases cookies
        · exact absurd (.inl rfl) hc
        · rfl
      subst hct
      have := C36_cookies_break U ord (onWire r) (onWire_writable hw) (fun h => hc (.inr h)) (onWire_inMemory r) v hv
      rw [hb] at this
      have hle : (copy r.body.getReader).1.length ≤ (bodyBytes r).length := by
        by_cases hm : InMemory r
        · rw [copy_inMemory hm]; exact Nat.le_refl _
        · obtain ⟨b, hb'⟩ : ∃ b, r.body.getReader = .file b := by
            apply Classical.byContradiction
            intro h
            exact hm fun b hb => h ⟨b, hb⟩
          rw [hb', copy_anyFile]
          exact Nat.zero_le _
      have e : (bodyBytes (onWire r)).length = (copy r.body.getReader).1.length := rfl
      omega
  · rintro ⟨hc, hb⟩
    obtain ⟨v, h1, ⟨a1, a2, a3, a4, a5⟩, -⟩ := C36_roundtrip_partial U cookies ord (onWire r) (onWire_writable hw) hc
      (onWire_inMemory r)
    exact ⟨v, h1, a1, a2, a3, a4, a5.trans hb⟩

/-- C34, exactly: what the handlers left reaches the client exactly if there is a body, it is in memory or an empty
file, and no cookie was set (or the feature is off). -/
theorem C34_iff {W : Type u} (sv : Server W) (w : W) (s : Sock) (req : Request)
    (h : Reads sv.feat sv.allocOk s req)
    (hv : req.requestLine.version ≠ .http11 ∨ ∃ hd ∈ req.headers.raw, lowered hd.name = c!"host")
    (hm : req.requestLine.method ≠ .none) (w' : W) (res : Response)
    (hr : Router.run sv.feat.urlVariables sv.router req (w, Response.newEmpty) = .ok (w', res))
    (hb : res.body ≠ .none) (hw : Writable sv.U res) :
    (∃ bytes v, sv.serve w s = .ok (w', bytes) ∧ ClientParses bytes v ∧ SeenAs sv.U sv.feat.cookies res v) ↔
      (sv.feat.cookies = false ∨ res.cookies = []) ∧ (InMemory res ∨ bodyBytes res = []) := by
  have e := ((C34_dispatch sv w s req h hv hm).1 w' res hr).2 hb
  rw [← C36_iff sv.U sv.feat.cookies sv.ord res hw]
  constructor
  · rintro ⟨bytes, v, h1, h2, h3⟩
    rw [e] at h1
    simp only [Io.ok.injEq, Prod.mk.injEq, true_and] at h1
    subst h1
    exact ⟨v, h2, h3⟩
  · rintro ⟨v, h2, h3⟩
    exact ⟨_, v, e, h2, h3⟩

/-- Which answers a client can read at all, and what it then knows of the head. -/
theorem read_iff (U : Unicode) (cookies : Bool) (ord : MapOrder) (r : Response) (hw : Writable U r) :
    ((∃ v, ClientParses (sendData (r.getData U cookies ord)) v) ↔
      cookies = false ∨ r.cookies = [] ∨ ∃ hs rest, BeginsWithHeaders (copy r.body.getReader).1 hs rest) ∧
    ∀ v, ClientParses (sendData (r.getData U cookies ord)) v →
      IntNumeral r.statusCode.code v.code ∧ ∀ x ∈ r.headers, x ∈ v.headers := by
  rw [onWire_bytes]
  by_cases hc : cookies = false ∨ r.cookies = []
  · obtain ⟨v, h1, ⟨-, h2, -, h4, -⟩, h3⟩ := C36_roundtrip_partial U cookies ord (onWire r) (onWire_writable hw) hc
      (onWire_inMemory r)
    refine ⟨⟨fun _ => by rcases hc with hc | hc <;> simp [hc], fun _ => ⟨v, h1⟩⟩, fun v' hv' => ?_⟩
    rw [h3 v' hv']
    exact ⟨h2, fun x hx => h4.mem_iff.2 (List.mem_append_left _ hx)⟩
  · have hct : cookies = true := by
      cases cookies
      · exact absurd (.inl rfl) hc
      · rfl
    subst hct
    have hne : r.cookies ≠ [] := fun h => hc (.inr h)
    refine ⟨?_, fun v hv => ?_⟩
    · rw [C36_cookies_readable U ord (onWire r) (onWire_writable hw) hne (onWire_inMemory r)]
      simp [hne]
      rfl
    · obtain ⟨-, h2, -, more, h3, -⟩ := (C36_cookies_exact U ord (onWire r) (onWire_writable hw) hne
        (onWire_inMemory r) v).1 hv
      refine ⟨h2, fun x hx => ?_⟩
      rw [h3]
      simp only [List.append_assoc, List.mem_append]
      exact .inl ((ord.perm _).mem_iff.2 hx)

/-- C41, exactly: the client sees the redirect exactly if a body was sent too, and no cookie was set (or the feature is
off) or the body happens to begin like headers. -/
theorem C41_iff {W : Type u} (sv : Server W) (w : W) (s : Sock) (req : Request)
    (h : Reads sv.feat sv.allocOk s req)
    (hv : req.requestLine.version ≠ .http11 ∨ ∃ hd ∈ req.headers.raw, lowered hd.name = c!"host")
    (hm : req.requestLine.method ≠ .none) (w' : W) (pre post : List ResOp) (l : Str) (r : Response)
    (hops : execOps sv.U Response.newEmpty (pre ++ .redirect l :: post) = .ok r)
    (h1 : ∀ o ∈ post, c!"Location" ∉ o.touches) (h2 : ∀ o ∈ post, o.setsStatus = false)
    (hr : Router.run sv.feat.urlVariables sv.router req (w, Response.newEmpty) = .ok (w', r))
    (hw : Writable sv.U r) (hc : 0 ≤ sv.clock w') :
    (∃ out v, sv.serve w s = .ok (w', out) ∧ ClientParses out v ∧ v.code = c!"302" ∧ (c!"Location", l) ∈ v.headers) ↔
      r.body ≠ .none ∧ (sv.feat.cookies = false ∨ r.cookies = [] ∨
        ∃ hs rest, BeginsWithHeaders (copy r.body.getReader).1 hs rest) := by
  obtain ⟨e1, e2⟩ := C41_redirect_state sv.U pre post l _ r HMap.Uniq.nil hops h1 h2
  obtain ⟨d1, d2⟩ := (C34_dispatch sv w s req h hv hm).1 w' r hr
  obtain ⟨g1, g2⟩ := read_iff sv.U sv.feat.cookies sv.ord r hw
  by_cases hb : r.body = .none
  · obtain ⟨bytes, v, f1, f2, f3, -⟩ := d1 hb hc
    refine ⟨?_, fun hx => absurd hb hx.1⟩
    rintro ⟨out, v', k1, k2, k3, -⟩
    rw [f1] at k1
    simp only [Io.ok.injEq, Prod.mk.injEq, true_and] at k1
    subst k1
    rw [k2.unique f2, f3] at k3
    exact absurd k3 (by decide)
  · rw [← g1]
    constructor
    · rintro ⟨out, v, k1, k2, -⟩
      rw [d2 hb] at k1
      simp only [Io.ok.injEq, Prod.mk.injEq, true_and] at k1
      subst k1
      exact ⟨hb, v, k2⟩
    · rintro ⟨-, v, hv⟩
      obtain ⟨a1, a2⟩ := g2 v hv
      exact ⟨_, v, d2 hb, hv, by rw [a1.eq, e1]; decide +kernel, a2 _ (HMap.mem_of_get e2)⟩

/-- the last member of a list with a property -/
theorem last_with {α : Type u} (p : α → Prop) : ∀ l : List α, (∃ x ∈ l, p x) →
    ∃ pre x post, l = pre ++ x :: post ∧ p x ∧ ∀ y ∈ post, ¬ p y
  | [], h => by simp at h
  | x :: l, h => by
    by_cases hl : ∃ y ∈ l, p y
    · obtain ⟨pre, y, post, rfl, h1, h2⟩ := last_with p l hl
      exact ⟨x :: pre, y, post, rfl, h1, h2⟩
    · obtain ⟨y, hy, hp⟩ := h
      rcases List.mem_cons.1 hy with rfl | hy
      · exact ⟨[], y, l, rfl, hp, fun z hz hpz => hl ⟨z, hz, hpz⟩⟩
      · exact absurd ⟨y, hy, hp⟩ hl

/-- does the operation set the default headers? -/
def Spec.ResOp.dates (clock : Int) (o : ResOp) : Prop := o = .defaultHeaders clock ∨ ∃ b, o = .send clock b

/-- C91, exactly: an answer that a handler made, that the client can read, and whose Date was not set or removed by
hand, has a Date exactly if the default headers were set or something was sent that is not a file. -/
theorem C91_iff {W : Type u} (sv : Server W) (w : W) (s : Sock) (req : Request)
    (h : Reads sv.feat sv.allocOk s req)
    (hv : req.requestLine.version ≠ .http11 ∨ ∃ hd ∈ req.headers.raw, lowered hd.name = c!"host")
    (hm : req.requestLine.method ≠ .none) (w' : W) (ops : List ResOp) (r : Response)
    (hr : Router.run sv.feat.urlVariables sv.router req (w, Response.newEmpty) = .ok (w', r))
    (hops : execOps sv.U Response.newEmpty ops = .ok r) (hb : r.body ≠ .none) (hw : Writable sv.U r)
    (hck : sv.feat.cookies = false ∨ r.cookies = [])
    (hhand : ∀ o ∈ ops, c!"Date" ∈ o.touches → ∃ clock, o.dates clock)
    (hclock : ∀ o ∈ ops, ∀ clock, o.dates clock → clock ≤ i64Max) :
    ∃ bytes v, sv.serve w s = .ok (w', bytes) ∧ ClientParses bytes v ∧
      ((∃ t, (c!"Date", t) ∈ v.headers) ↔ ∃ o ∈ ops, ∃ clock, o.dates clock) := by
  obtain ⟨v, v1, v2, -⟩ := client_head sv.U sv.feat.cookies sv.ord r hw hck
  refine ⟨_, v, ((C34_dispatch sv w s req h hv hm).1 w' r hr).2 hb, v1, ?_⟩
  constructor
  · rintro ⟨t, ht⟩
    apply Classical.byContradiction
    intro hno
    have hnone := C91_none sv.U ops r hops fun o ho hd => hno ⟨o, ho, hhand o ho hd⟩
    have hu : HMap.Uniq r.headers := execOps_uniq hops HMap.Uniq.nil
    have := HMap.get_of_mem hu (v2.mem_iff.1 ht)
    rw [Response.get] at hnone
    rw [hnone] at this
    simp at this
  · intro hex
    obtain ⟨pre, o, post, rfl, ⟨clock, ho⟩, hpost⟩ := last_with (fun o => ∃ clock, ResOp.dates clock o) ops hex
    obtain ⟨t, -, ht⟩ := C91_date sv.U pre post clock o r ho hops (hclock o (by simp) clock ho) fun x hx hd =>
      hpost x hx (hhand x (by simp [hx]) hd)
    exact ⟨t, v2.mem_iff.2 (HMap.mem_of_get ht)⟩

namespace SeenExample

/-- a handler that sends a file of one byte and redirects -/
def ops : List ResOp := [.sendFile oneFile c!"a.txt", .redirect c!"/x"]
def sv : Server Unit := demo (doing fun _ => ops)
def sock : Sock := sends c!"GET /a HTTP/1.0\r\nA: b\r\n\r\n"
def req : Request := ⟨⟨.get, [c!"a"], .http10⟩, ⟨[(c!"a", c!"b")], [⟨c!"A", c!"b"⟩]⟩, [], []⟩
/-- what it leaves -/
def left : Response :=
  { Response.newEmpty with
    statusCode := .found, headers := [(c!"Content-Type", c!"text/plain"), (c!"Location", c!"/x")], contentLen := some 1,
    body := .sized 1 (.file (some [120])) }

theorem run_left : Router.run sv.feat.urlVariables sv.router req ((), Response.newEmpty) = .ok ((), left) := by
  decide +kernel
theorem ops_left : execOps sv.U Response.newEmpty ops = .ok left := by decide +kernel

theorem left_writable : Writable sv.U left := by
  refine ⟨by decide, by decide +kernel, ?_, by simp [left, Response.newEmpty]⟩
  intro k v hkv
  simp only [left, List.mem_cons, List.not_mem_nil, or_false, Prod.mk.injEq] at hkv
  rcases hkv with ⟨rfl, rfl⟩ | ⟨rfl, rfl⟩
  · refine ⟨by decide, by decide, by decide, by decide, ?_⟩
    intro c hc; simp at hc; subst hc; decide
  · refine ⟨by decide, by decide, by decide, by decide, ?_⟩
    intro c hc; simp at hc; subst hc; decide

theorem left_file : ¬ InMemory left := fun h => h (some [120]) rfl

/-- the client sees the redirect, since there is a body -/
example : ∃ out v, sv.serve () sock = .ok ((), out) ∧ ClientParses out v ∧ v.code = c!"302" ∧
    (c!"Location", c!"/x") ∈ v.headers :=
  (C41_iff sv () sock req C41_reads (.inl (by decide)) (by decide) () [.sendFile oneFile c!"a.txt"] [] c!"/x" left
    ops_left (by simp) (by simp) run_left left_writable (by decide)).2 ⟨by simp [left], .inr (.inl rfl)⟩

/-- but not the file, and no Date -/
example : (¬ ∃ bytes v, sv.serve () sock = .ok ((), bytes) ∧ ClientParses bytes v ∧ SeenAs sv.U sv.feat.cookies left v) ∧
    ∃ bytes v, sv.serve () sock = .ok ((), bytes) ∧ ClientParses bytes v ∧ ¬ ∃ t, (c!"Date", t) ∈ v.headers := by
  constructor
  · rw [C34_iff sv () sock req C41_reads (.inl (by decide)) (by decide) () left run_left (by simp [left]) left_writable]
    rintro ⟨-, h | h⟩
    · exact left_file h
    · simp [bodyBytes, left] at h
  · obtain ⟨bytes, v, h1, h2, h3⟩ := C91_iff sv () sock req C41_reads (.inl (by decide)) (by decide) () ops left run_left
      ops_left (by simp [left]) left_writable (.inr rfl) (by simp [ops, ResOp.touches])
      (by simp [ops, ResOp.dates])
    exact ⟨bytes, v, h1, h2, fun h => absurd (h3.1 h) (by simp [ops, ResOp.dates])⟩

/-- an empty file arrives, a cookie keeps anything from arriving -/
example (ord : MapOrder) :
    (∃ v, ClientParses (sendData (Response.getData sv.U true ord { left with body := .sized 0 (.file (some [])) })) v ∧
      SeenAs sv.U true { left with body := .sized 0 (.file (some [])) } v) ∧
    ¬ ∃ v, ClientParses (sendData (C36_example.getData .asciiOnly true ord)) v ∧ SeenAs .asciiOnly true C36_example v := by
  constructor
  · refine (C36_iff _ _ _ { left with body := .sized 0 (.file (some [])) } ⟨left_writable.version, left_writable.phrase,
      left_writable.headers, left_writable.cookies⟩).2 ⟨.inr rfl, .inr rfl⟩
  · rw [C36_iff _ _ _ _ C36_example_writable]
    rintro ⟨h | h, -⟩
    · simp at h
    · simp [C36_example] at h

end SeenExample
end Octane
