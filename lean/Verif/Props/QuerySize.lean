import Verif.Proof.QuerySize
import Verif.Model.Request
/-
Property C113: what a query is parsed into takes no more room than the query.
-/
namespace Octane
open Query

namespace Spec

/-- the number of bytes of a string -/
def room (s : Str) : Nat := (utf8 s).length

/-- the bytes of all keys and values of a map, and one for each entry -/
def mapRoom (m : HMap Str Str) : Nat := (m.map fun e => room e.1 + room e.2 + 1).sum

/-- the bytes of all strings in a value of an extended query; one for each entry of an array or
object -/
def valueRoom : QueryValue → Nat
  | .str s => room s
  | .arr l => (l.map fun s => room s + 1).sum
  | .obj m => mapRoom m

/-- the bytes of all keys and values of an extended query, and one for each entry -/
def extRoom (m : HMap Str QueryValue) : Nat := (m.map fun e => room e.1 + valueRoom e.2 + 1).sum

end Spec

open Spec

/-! ## C113 -/

/-- C113: decoding never makes a string longer, although `%80` to `%FF` become characters of two
bytes. -/
theorem C113_decode (s d : Str) (h : unescapeHex s = .ok d) : room d ≤ room s := by
  rw [unescapeHex_eq] at h
  injection h with h
  subst h
  exact size_decode s

/-- one character of three bytes becomes one of two -/
example : unescapeHex c!"a%E9b" = .ok c!"aéb" ∧ room c!"aéb" = 4 ∧ room c!"a%E9b" = 5 := by
  refine ⟨by rw [unescapeHex_eq]; decide +kernel, by decide +kernel, by decide +kernel⟩

private theorem pair_room {faithful : Bool} {tok : Str} {p : Str × Str}
    (h : pairOf faithful tok = some p) : room p.1 + room p.2 ≤ room tok := by
  unfold pairOf at h
  simp only at h
  split at h
  · cases h
  · injection h with h
    subst h
    have h1 := size_decode (tok.takeWhile (· != '='))
    have h2 := size_decode ((tok.dropWhile (· != '=')).drop 1)
    have h3 := size_token tok
    unfold room
    simp only
    omega

private theorem build_room (faithful : Bool) (toks : List Str) (m : HMap Str Str) :
    mapRoom (build m (toks.filterMap (pairOf faithful))) ≤
      mapRoom m + (toks.map fun t => (utf8 t).length + 1).sum := by
  induction toks generalizing m with
  | nil => simp [build]
  | cons tok toks ih =>
    cases hp : pairOf faithful tok with
    | none =>
      rw [List.filterMap_cons_none hp]
      have := ih m
      simp only [List.map_cons, List.sum_cons]
      omega
    | some p =>
      rw [List.filterMap_cons_some hp]
      have h1 : build m (p :: toks.filterMap (pairOf faithful)) =
        build (m.insert p.1 p.2) (toks.filterMap (pairOf faithful)) := rfl
      rw [h1]
      have h2 := ih (m.insert p.1 p.2)
      have h3 : mapRoom (m.insert p.1 p.2) ≤ mapRoom m + (room p.1 + room p.2 + 1) :=
        sum_insert_le (fun e => room e.1 + room e.2 + 1) m p.1 p.2
      have h4 : room p.1 + room p.2 ≤ (utf8 tok).length := pair_room hp
      simp only [List.map_cons, List.sum_cons]
      omega

private theorem sum_toks (query : Str) :
    ((splitChar '&' query).map fun t => (utf8 t).length + 1).sum = room query + 1 :=
  sum_splitChar (by decide) query

/-- C113: the keys and values of a query, with one byte for each entry, take at most one byte more
than the text of the query. -/
theorem C113_query (faithful : Bool) (query : Str) (m : HMap Str Str)
    (h : parseQuery faithful query = .ok m) : mapRoom m ≤ room query + 1 := by
  unfold parseQuery at h
  rw [parseQueryLoop_eq] at h
  injection h with h
  subst h
  have h1 := build_room faithful (splitChar '&' query) []
  rw [sum_toks] at h1
  simpa [mapRoom] using h1

/-- C113: the bound is met: `a&b` has three bytes, and its map two entries of one byte. -/
theorem C113_query_tight : ∃ query m, parseQuery true query = .ok m ∧ m.length = 2 ∧
    mapRoom m = room query + 1 := by
  refine ⟨c!"a&b", [(c!"a", []), (c!"b", [])], ?_, rfl, by decide +kernel⟩
  unfold parseQuery
  rw [parseQueryLoop_eq]
  congr 1

/-- the bytes an occurrence adds at most, with one for each new entry -/
private def occRoom : Occ → Nat
  | .plain k v => room k + room v + 1
  | .push k v => room k + room v + 2
  | .put k i v => room k + room i + room v + 2

private theorem apply_room (m : HMap Str QueryValue) (o : Occ) :
    extRoom (apply m o) ≤ extRoom m + occRoom o := by
  let f : Str × QueryValue → Nat := fun e => room e.1 + valueRoom e.2 + 1
  have le : ∀ k v, extRoom (m.insert k v) ≤ extRoom m + (room k + valueRoom v + 1) :=
    fun k v => sum_insert_le f m k v
  have eq : ∀ k v v', m.get k = some v' →
      extRoom (m.insert k v) + (room k + valueRoom v' + 1) =
        extRoom m + (room k + valueRoom v + 1) := fun k v v' h => sum_insert_get f m k v v' h
  cases o with
  | plain k v => exact le k (.str v)
  | push k v =>
    cases hg : m.get k with
    | none =>
      have h1 := le k (.arr [v])
      simp only [apply, hg, occRoom, valueRoom, List.map_cons, List.map_nil, List.sum_cons,
        List.sum_nil] at h1 ⊢
      omega
    | some x =>
      cases x with
      | arr l =>
        have h1 := eq k (.arr (l ++ [v])) _ hg
        simp only [apply, hg, occRoom, valueRoom, List.map_append, List.map_cons, List.map_nil,
          List.sum_append, List.sum_cons, List.sum_nil] at h1 ⊢
        omega
      | str s => simp only [apply, hg]; omega
      | obj s => simp only [apply, hg]; omega
  | put k i v =>
    cases hg : m.get k with
    | none =>
      have h1 := le k (.obj [(i, v)])
      simp only [apply, hg, occRoom, valueRoom, mapRoom, List.map_cons, List.map_nil, List.sum_cons,
        List.sum_nil] at h1 ⊢
      omega
    | some x =>
      cases x with
      | obj l =>
        have h1 := eq k (.obj (l.insert i v)) _ hg
        have h2 : mapRoom (l.insert i v) ≤ mapRoom l + (room i + room v + 1) :=
          sum_insert_le (fun e => room e.1 + room e.2 + 1) l i v
        simp only [apply, hg, occRoom, valueRoom] at h1 ⊢
        omega
      | str s => simp only [apply, hg]; omega
      | arr s => simp only [apply, hg]; omega

/-- a name `outer[inner]` and its parts -/
private theorem bracket_room {name : Str} (hl : name.getLast? = some ']') (hm : '[' ∈ name) :
    room ((name.dropLast.reverse.dropWhile (· != '[')).drop 1).reverse +
      room (name.dropLast.reverse.takeWhile (· != '[')).reverse + 2 ≤ room name := by
  have rev : ∀ s : Str, (utf8 s.reverse).length = (utf8 s).length := by
    intro s
    induction s with
    | nil => rfl
    | cons c s ih =>
      rw [List.reverse_cons, utf8_append, List.length_append, ih]
      simp [Nat.add_comm]
  obtain ⟨pre, rfl⟩ : ∃ pre, name = pre ++ [']'] := by
    refine ⟨name.dropLast, ?_⟩
    have hne : name ≠ [] := by rintro rfl; cases hl
    have := List.dropLast_concat_getLast hne
    rw [List.getLast?_eq_some_getLast hne] at hl
    injection hl with hl
    rw [hl] at this
    exact this.symm
  have hmem : '[' ∈ pre.reverse := by
    rcases List.mem_append.1 hm with h | h
    · exact List.mem_reverse.2 h
    · simp at h
  simp only [List.dropLast_concat]
  have split : pre.reverse = pre.reverse.takeWhile (· != '[') ++ pre.reverse.dropWhile (· != '[') :=
    (List.takeWhile_append_dropWhile ..).symm
  have h2 : (utf8 (pre.reverse.dropWhile (· != '['))).length =
      (utf8 ((pre.reverse.dropWhile (· != '[')).drop 1)).length + 1 := by
    have gen : ∀ l : Str, '[' ∈ l →
        ∃ r, l.dropWhile (· != '[') = '[' :: r := by
      intro l
      induction l with
      | nil => simp
      | cons c l ih =>
        intro h
        by_cases hc : c = '['
        · exact ⟨l, by simp [hc]⟩
        · have : '[' ∈ l := by
            rcases List.mem_cons.1 h with h | h
            · exact absurd h.symm hc
            · exact h
          rw [List.dropWhile_cons, if_pos (by simpa using hc)]
          exact ih this
    obtain ⟨r, hr⟩ := gen _ hmem
    rw [hr, utf8_cons, List.length_append, List.drop_succ_cons, List.drop_zero]
    have : (String.utf8EncodeChar '[').length = 1 := by decide
    omega
  have h3 : (utf8 (pre ++ [']'])).length = (utf8 pre).length + 1 := by
    rw [utf8_append, List.length_append]
    have : (utf8 [']']).length = 1 := by decide
    omega
  have h4 : (utf8 pre).length = (utf8 (pre.reverse.takeWhile (· != '['))).length +
      (utf8 (pre.reverse.dropWhile (· != '['))).length := by
    rw [← rev pre, ← List.length_append, ← utf8_append, ← split]
  unfold room
  rw [rev, rev]
  omega

private theorem occ_room {faithful : Bool} {tok : Str} {o : Occ}
    (h : occOf faithful tok = some o) : occRoom o ≤ room tok + 1 := by
  unfold occOf at h
  simp only at h
  split at h
  · split at h
    · cases h
    · injection h with h
      subst h
      have := size_decode tok
      have e : room [] = 0 := rfl
      simp only [occRoom, room] at *
      omega
  · rename_i hmem
    have hmem : '=' ∈ tok := Classical.not_not.1 hmem
    have h3 := size_token_eq hmem
    have h1 := size_decode (tok.takeWhile (· != '='))
    have h2 := size_decode ((tok.dropWhile (· != '=')).drop 1)
    split at h
    · cases h
    · split at h
      · rename_i hb
        have h4 := bracket_room hb.1 hb.2
        split at h
        · injection h with h
          subst h
          simp only [occRoom, room] at *
          omega
        · injection h with h
          subst h
          simp only [occRoom, room] at *
          omega
      · injection h with h
        subst h
        simp only [occRoom, room] at *
        omega

/-- C113: the same for extended queries, counting every entry of every array and object. -/
theorem C113_extended (faithful : Bool) (query : Str) (m : HMap Str QueryValue)
    (h : parseExtendedQuery faithful query = .ok m) : extRoom m ≤ room query + 1 := by
  have loop : ∀ (toks : List Str) (m : HMap Str QueryValue),
      extRoom ((toks.filterMap (occOf faithful)).foldl apply m) ≤
        extRoom m + (toks.map fun t => (utf8 t).length + 1).sum := by
    intro toks
    induction toks with
    | nil => intro m; simp
    | cons tok toks ih =>
      intro m
      cases ho : occOf faithful tok with
      | none =>
        rw [List.filterMap_cons_none ho]
        have := ih m
        simp only [List.map_cons, List.sum_cons]
        omega
      | some o =>
        rw [List.filterMap_cons_some ho, List.foldl_cons]
        have h2 := ih (apply m o)
        have h3 := apply_room m o
        have h4 : occRoom o ≤ (utf8 tok).length + 1 := occ_room ho
        simp only [List.map_cons, List.sum_cons]
        omega
  unfold parseExtendedQuery at h
  rw [extLoop_eq] at h
  injection h with h
  subst h
  have h1 := loop (splitChar '&' query) []
  rw [sum_toks] at h1
  simpa [extRoom] using h1

/-- an array of two, an object of one and a plain entry: 10 bytes of strings in six entries, out of
a text of 26 bytes -/
example : ∃ m, parseExtendedQuery true c!"a[]=x&a[]=yz&o[k]=v&p%41=w" = .ok m ∧
    m = [(c!"a", .arr [c!"x", c!"yz"]), (c!"o", .obj [(c!"k", c!"v")]), (c!"pA", .str c!"w")] ∧
    extRoom m = 16 ∧ room c!"a[]=x&a[]=yz&o[k]=v&p%41=w" = 26 := by
  refine ⟨_, ?_, rfl, by decide +kernel, by decide +kernel⟩
  unfold parseExtendedQuery
  rw [extLoop_eq]
  congr 1

private theorem display_room {target : Str} {path : PathBuf} (h : Path.parse target = some path) :
    room (Path.display path) ≤ room target + 1 := by
  let f : Str → Nat := fun c => (utf8 c).length + 1
  have disp : ∀ p : PathBuf, room (Path.display p) = (p.map f).sum := by
    intro p
    induction p with
    | nil => rfl
    | cons c p ih =>
      have e : Path.display (c :: p) = (c ++ ['/']) ++ Path.display p := rfl
      have h1 : (utf8 ['/']).length = 1 := by decide
      simp only [room] at ih
      rw [e, room, utf8_append, List.length_append, utf8_append, List.length_append, ih]
      simp only [List.map_cons, List.sum_cons, f]
      omega
  have step : ∀ (cs : List Str) (p q : PathBuf), Path.parseLoop p cs = some q →
      (q.map f).sum ≤ (p.map f).sum + (cs.map f).sum := by
    intro cs
    induction cs with
    | nil =>
      intro p q h
      injection h with h
      subst h
      simp
    | cons c cs ih =>
      intro p q h
      unfold Path.parseLoop at h
      cases hs : Path.parseStep p c with
      | none => rw [hs] at h; cases h
      | some p' =>
        rw [hs] at h
        have h1 := ih p' q h
        have h2 : (p'.map f).sum ≤ (p.map f).sum + f c := by
          unfold Path.parseStep at hs
          split at hs
          · injection hs with hs; subst hs; omega
          · split at hs
            · split at hs
              · cases hs
              · injection hs with hs
                subst hs
                rename_i x hx
                have hne : p ≠ [] := by rintro rfl; cases hx
                have := List.dropLast_concat_getLast hne
                have e : (p.map f).sum = (p.dropLast.map f).sum + f (p.getLast hne) := by
                  conv => lhs; rw [← this]
                  simp
                omega
            · injection hs with hs
              subst hs
              simp
        simp only [List.map_cons, List.sum_cons]
        omega
  rw [disp]
  have := step _ _ _ h
  have e : ((splitChar '/' target).map f).sum = room target + 1 := sum_splitChar (by decide) target
  rw [e] at this
  simpa using this

/-- C113: what `Request::get_query` and `Request::get_extended_query` return takes at most two bytes
more than the target of the request. -/
theorem C113_request (feat : Features) (r : Request) (target : Str)
    (ht : Path.parse target = some r.requestLine.path) :
    (∀ m, r.getQuery feat = .ok m → mapRoom m ≤ room target + 2) ∧
    (∀ m, r.getExtendedQuery feat = .ok m → extRoom m ≤ room target + 2) := by
  have hd := display_room ht
  refine ⟨fun m h => ?_, fun m h => ?_⟩
  · have := C113_query _ _ _ h
    omega
  · have := C113_extended _ _ _ h
    omega

/-- a target whose path is normalised on the way: the entry holds the closing `/` -/
example : ∃ r : Request, Path.parse c!"a=b/../x=%C3" = some r.requestLine.path ∧
    r.getQuery ⟨true, true, true⟩ = .ok [(c!"x", c!"Ã/")] ∧
    mapRoom [(c!"x", c!"Ã/")] = 5 := by
  refine ⟨⟨⟨.get, [c!"x=%C3"], .http11⟩, ⟨[], []⟩, [], []⟩, by decide +kernel, ?_, by decide +kernel⟩
  unfold Request.getQuery parseQuery
  rw [parseQueryLoop_eq]
  congr 1

end Octane
