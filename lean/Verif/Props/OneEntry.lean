import Verif.Props.Echo
import Verif.Props.Router
import Verif.Props.Target
/-
C131: what a URL variable can be, and which files can be named with one.
-/
namespace Octane
open Spec
variable {S : Type u}

theorem parseLine_path {faithful : Bool} {line : Str} {rl : RequestLine}
    (h : RequestLine.parse faithful line = .ok (some rl)) : ∃ t, ' ' ∉ t ∧ Path.parse t = some rl.path := by
  have hno : ∀ t ∈ splitChar ' ' line, ' ' ∉ t := fun t ht => splitChar_not_mem ' ' line t ht
  unfold RequestLine.parse at h
  revert h hno
  generalize splitChar ' ' line = toks
  intro h hno
  match toks, h with
  | [], h => simp at h
  | [_], h => simp at h
  | m :: p :: toks, h =>
    simp only at h
    cases hp : Path.parse p with
    | none => rw [hp] at h; simp at h
    | some path =>
      rw [hp] at h
      refine ⟨p, hno p (by simp), ?_⟩
      rw [hp]
      cases toks with
      | nil => simp at h
      | cons version rest =>
        simp only at h
        cases hs : splitAtByte 5 version with
        | panic => rw [hs] at h; simp at h
        | ok y =>
          obtain ⟨first, ver⟩ := y
          rw [hs] at h
          simp only [Res.bind_ok'] at h
          split at h
          · simp at h
          · simp only [Res.ok.injEq, Option.some.injEq] at h
            rw [← h]

/-- The text is the name of one entry of a directory, and fits on the request line. -/
def Spec.OneEntry (v : Str) : Prop :=
  v ≠ [] ∧ '/' ∉ v ∧ v ≠ ['.'] ∧ v ≠ ['.', '.'] ∧ ' ' ∉ v ∧ ¬ Occurs v crlf

/-- every segment of the path of a request is such a name -/
theorem path_entries {feat : Features} {allocOk : Nat → Bool} {s : Sock} {req : Request}
    (h : Reads feat allocOk s req) : ∀ v ∈ req.requestLine.path, OneEntry v := by
  intro v hv
  have hcr := (C75_pairs_partial feat allocOk s req h).2.2 v hv
  obtain ⟨hdrs, line, rem, reader, H, rl, h1, h2, h3, h4⟩ := h
  obtain ⟨e1, -⟩ := fromRaw_fields h4
  rw [e1] at hv
  obtain ⟨t, ht, hp⟩ := parseLine_path h3
  obtain ⟨n1, n2, n3, n4⟩ := C01_parsed_path_normal t rl.path hp v hv
  refine ⟨n1, n4, n2, n3, ?_, hcr⟩
  have hne := splitChar_ne_nil '/' t
  have hno := splitChar_not_mem '/' t
  have hjoin := splitChar_intercalate '/' t
  have hcl : ¬ Climbs (splitChar '/' t) := by
    rw [← (C02_dotdot_rule _ hne hno).1, hjoin, hp]; simp
  have := (C02_dotdot_rule _ hne hno).2 hcl
  rw [hjoin, hp] at this
  simp only [Option.some.injEq] at this
  rw [this] at hv
  have h6 := infix_intercalate ['/'] _ v (resolve_mem _ _ hv)
  rw [hjoin] at h6
  exact fun hm => ht (h6.subset hm)

/-- C131: every URL variable that a handler sees, for whatever was registered and whatever a client sends, is the
name of one entry of a directory. -/
theorem C131_one_entry (feat : Features) (allocOk : Nat → Bool) (s : Sock) (req : Request)
    (hr : Reads feat allocOk s req) (calls : List (Call (S × List Event))) (T : List Event)
    (h : Dispatched feat.urlVariables calls req T) (hf : FairL calls) (hn : (logOfL calls).length < 2 ^ 64)
    (ht : TracedLog 0 (logOfL calls)) (a : Event) (ha : a ∈ T) (n v : Str) (hv : a.2.1.get n = some v) :
    OneEntry v := by
  have hm : req.requestLine.method ≠ .all := by
    obtain ⟨hdrs, line, rem, reader, H, rl, h1, h2, h3, h4⟩ := hr
    rw [(fromRaw_fields h4).1]
    exact C12_parsed_method _ _ _ h3
  obtain ⟨e, -, he⟩ := C11_own_variables h hf hn ht hm a ha
  have key : ∀ p, (if feat.urlVariables then ∀ n v, a.2.1.get n = some v ↔ Binds p req.requestLine.path n v
      else a.2.1 = []) → OneEntry v := by
    intro p hp
    cases hu : feat.urlVariables with
    | false => rw [hu] at hp; simp only [Bool.false_eq_true, if_false] at hp; rw [hp] at hv; simp [HMap.get] at hv
    | true =>
      rw [hu] at hp
      simp only [if_true] at hp
      obtain ⟨i, -, h2, -⟩ := (hp n v).1 hv
      exact path_entries hr v (List.mem_of_getElem? h2)
  cases ht : e.target with
  | everywhere => rw [ht] at he; simp only at he; rw [he] at hv; simp [HMap.get] at hv
  | on m p => rw [ht] at he; exact key p he
  | anyMethod p => rw [ht] at he; exact key p he

theorem visits_append (dir : List Str) (a b : List Str) (d : List Str)
    (h : (visits dir a).getLast? = some d) : (visits dir (a ++ b)).getLast? = (visits d b).getLast? := by
  induction a generalizing dir with
  | nil =>
    simp only [visits, List.getLast?_singleton, Option.some.injEq] at h
    rw [← h, List.nil_append]
  | cons x a ih =>
    have hne : ∀ (dir : List Str) (l : List Str), visits dir l ≠ [] := by
      intro dir l; cases l <;> simp [visits]
    have hcons : ∀ (x : List Str) (l : List (List Str)), l ≠ [] → (x :: l).getLast? = l.getLast? := by
      intro x l hl
      cases l with
      | nil => exact absurd rfl hl
      | cons y l => rw [List.getLast?_cons_cons]
    simp only [visits, List.cons_append] at h ⊢
    rw [hcons _ _ (hne _ _)] at h
    rw [hcons _ _ (hne _ _)]
    exact ih _ h

theorem components_slash (b v : Str) : components (b ++ '/' :: v) = components b ++ components v := by
  induction b with
  | nil => simp [components]
  | cons c b ih =>
    have hne : components b ≠ [] := by
      rw [Path.components_eq]; exact splitChar_ne_nil '/' b
    by_cases hc : c = '/'
    · simp only [List.cons_append, components, if_pos hc, ih]
    · simp only [List.cons_append, components, if_neg hc, ih]
      cases hb : components b with
      | nil => exact absurd hb hne
      | cons x l => rfl

/-- So a handler that puts such a name behind a directory and a slash names an entry of that directory, whatever
the directory is called: no file outside it and none deeper in it. -/
theorem C131_inside (v : Str) (hv : OneEntry v) (dir : List Str) (base : Str) (d : List Str)
    (hd : (visits dir (components base)).getLast? = some d) :
    (visits dir (components (base ++ '/' :: v))).getLast? = some (d ++ [v]) := by
  obtain ⟨h1, h2, h3, h4, -, -⟩ := hv
  rw [components_slash, visits_append dir _ _ d hd]
  have e : components v = [v] := by
    rw [Path.components_eq]; exact splitChar_of_not_mem h2
  have e1 : isUp v = false := by simpa [isUp] using h4
  have e2 : isName v = true := by simp [isName, h1, h3, h4]
  simp [e, visits, e1, e2]

namespace OneEntryExample
open RouterExample

/-- `GET /a/b` from a connection, sent to the program of `RouterExample` -/
theorem dispatched (req : Request) (hm : req.requestLine.method = .get) (hp : req.requestLine.path = [c!"a", c!"b"]) :
    Dispatched true program req events := by
  obtain ⟨r, h1, h2⟩ := C12_run_is_replay program fair (by decide)
  refine ⟨r, (), (), h1, ?_⟩
  rw [h2 true req ((), []) (by rw [hm]; decide)]
  obtain ⟨⟨m, p, v⟩, hd, b, c⟩ := req
  simp only at hm hp
  rw [hm, hp]
  rfl

/-- its handler 0 sees the variable `x` with the value `b`, and `b` is the name of one entry -/
example : ∃ req, Reads Features.default (fun _ => true) (TargetExample.sock [c!"a", c!"b"]) req ∧
    Dispatched true program req events ∧ OneEntry c!"b" := by
  obtain ⟨req, hr, hm, -, hp, -⟩ := reads_wire Features.default (fun _ => true) (TargetExample.q [c!"a", c!"b"])
    (TargetExample.good _ (by decide) (by decide)) (TargetExample.sock [c!"a", c!"b"]) []
    (by rw [TargetExample.sock_bytes, List.append_nil]) (.inl rfl) (fun _ _ => rfl) (by decide)
  have hd := dispatched req (hm .get (by decide)) (by rw [hp]; decide)
  exact ⟨req, hr, hd, C131_one_entry Features.default (fun _ => true) _ req hr program events hd fair (by decide) traced
    (0, [(c!"x", c!"b")], .next) (by simp [events]) c!"x" c!"b" (by decide)⟩

theorem b_entry : OneEntry c!"b" := by
  refine ⟨by decide, by decide, by decide, by decide, by decide, ?_⟩
  rintro ⟨i, a, b, h, -⟩
  have hm : '\r' ∈ c!"b" := by rw [h]; simp [crlf]
  exact absurd hm (by decide)

/-- behind `/srv/../www` it names an entry of `/www` -/
example : (visits [] (components c!"/srv/../www/b")).getLast? = some [c!"www", c!"b"] :=
  C131_inside c!"b" b_entry [] c!"/srv/../www" [c!"www"] (by decide)

/-- names that are not such: with the first a handler would leave the directory -/
example : ¬ OneEntry c!".." ∧ ¬ OneEntry c!"a/b" ∧ ¬ OneEntry [] :=
  ⟨fun h => h.2.2.2.1 rfl, fun h => h.2.1 (by decide), fun h => h.1 rfl⟩

end OneEntryExample

end Octane
