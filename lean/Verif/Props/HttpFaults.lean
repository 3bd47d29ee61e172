import Verif.Props.HttpMessage

/-!
# What is wrong with the reading of responses

C235: the way a response is cut in pieces.  C236: errors in responses.  C237: responses that are misread.
-/

namespace Verif.Props

open Verif Verif.Http Verif.Http.Msg Verif.Spec.HttpMessage

/-- What comes of pieces that arrive in answer to a `GET`. -/
def reading (ps : List Str) : Except Exn (Received × List Str) := receiveAll "GET".toList {} {} ps

/-- Whether a response was read completely, with its status, its data and what is left over. -/
def readAs (x : Except Exn (Received × List Str)) : Option (Option Nat × Str × Str) :=
  match x with
  | .ok (x, left) => if x.complete then some (x.r.status, passed x.evs, x.b.pieces.flatten ++ left.flatten) else none
  | .error _ => none

/-- The exception, if there is one. -/
def raised (x : Except Exn (Received × List Str)) : Option Exn :=
  match x with
  | .ok _ => none
  | .error e => some e

/-- **C235 refuted.**  The same bytes are a complete response if they arrive together and an `UnboundLocalError` if they arrive in
two pieces: for a negative size of a chunk the data of the chunk before it are taken again, if there were any since `recv`. -/
theorem http_pieces_refuted :
    ∃ ps qs : List Str, ps.flatten = qs.flatten ∧ readAs (reading ps) = some (some 200, "a".toList, []) ∧
      raised (reading qs) = some .unbound :=
  ⟨["HTTP/1.1 200 OK\r\nTransfer-Encoding: chunked\r\n\r\n1\r\na\r\n-9\r\n0\r\n\r\n".toList],
    ["HTTP/1.1 200 OK\r\nTransfer-Encoding: chunked\r\n\r\n1\r\na\r\n".toList, "-9\r\n0\r\n\r\n".toList],
    by decide +kernel, by decide +kernel, by decide +kernel⟩

/-- **C235 (partial).**  Two ways in which the same response arrives come to the same: status, headers, data, end and what is
left over.  Missing: bytes that are not a response, see `http_pieces_refuted`. -/
theorem http_pieces_partial {m : Str} {major minor status : Nat} {fields : List Field} {data text : Str} {infos : List Nat}
    (h : Answer m major minor status fields data infos text) (ps qs : List Str) (rest : Str) (hp : ps.flatten = text ++ rest)
    (hq : qs.flatten = ps.flatten) :
    ∃ x y l k, receiveAll m {} {} ps = .ok (x, l) ∧ receiveAll m {} {} qs = .ok (y, k) ∧ x.complete = true ∧ y.complete = true ∧
      x.r.status = y.r.status ∧ (∀ name, getHeader x.r.headers name = getHeader y.r.headers name) ∧ passed x.evs = passed y.evs ∧
      x.b.pieces.flatten ++ l.flatten = y.b.pieces.flatten ++ k.flatten := by
  obtain ⟨x, l, ds, a1, a2, _, a4, a5, a6, a7, a8⟩ := http_response_read h ps rest hp
  obtain ⟨y, k, es, b1, b2, _, b4, b5, b6, b7, b8⟩ := http_response_read h qs rest (hq.trans hp)
  have hpass : ∀ ds : List Str, passed (answered infos ds status) = ds.flatten := by
    intro ds
    have h1 : ∀ is : List Nat, passed (is.flatMap fun s => [.header, .finished s]) = [] := by
      intro is
      induction is with
      | nil => rfl
      | cons i is ih => rw [List.flatMap_cons, passed_append, ih]; rfl
    have h2 : ∀ ds : List Str, passed (ds.map .data) = ds.flatten := by
      intro ds
      induction ds with
      | nil => rfl
      | cons d ds ih => rw [List.map_cons, List.flatten_cons, ← ih]; rfl
    unfold answered seen
    rw [passed_append, h1, List.nil_append, List.cons_append]
    show passed ([.header] ++ (ds.map .data ++ [.finished status])) = _
    rw [passed_append, passed_append, h2]
    simp [passed]
  refine ⟨x, y, l, k, a1, b1, a2, b2, a4.trans b4.symm, fun n => (a5 n).trans (b5 n).symm, ?_, a8.trans b8.symm⟩
  rw [a6, b6, hpass, hpass, a7, b7]

/-- **C236 refuted.**  What is no response is seldom an `HTTPException`: a status line that is none and a header without a colon are
`NameError`s, a size that is no number a `ValueError`, no size at all a `TypeError`, a length below zero an `UnboundLocalError`,
a length that is no number a `ValueError`; with a control character in the reason the parser never returns; data that go on
after the end of a chunk are no error at all, and a response with no status is a response. -/
theorem http_errors_refuted :
    raised (reading ["garbage\r\n".toList]) = some (.fault .nameError) ∧
    raised (reading ["HTTP/1.1 200 OK\r\nnonsense\r\n".toList]) = some (.fault .nameError) ∧
    raised (reading ["HTTP/1.1 200 OK\r\nTransfer-Encoding: chunked\r\n\r\nxyz\r\n".toList]) = some (.fault .valueError) ∧
    raised (reading ["HTTP/1.1 200 OK\r\nTransfer-Encoding: chunked\r\n\r\n\r\n".toList]) = some (.fault .typeError) ∧
    raised (reading ["HTTP/1.1 200 OK\r\nContent-Length: -5\r\n\r\n".toList]) = some .unbound ∧
    raised (reading ["HTTP/1.1 200 OK\r\nContent-Length: two\r\n\r\n".toList]) = some (.fault .valueError) ∧
    raised (reading ["HTTP/1.1 200 OK\x01\r\n".toList]) = some .endless ∧
    readAs (reading ["HTTP/1.1 200 OK\r\nTransfer-Encoding: chunked\r\n\r\n3\r\nabcXX0\r\n\r\n".toList]) =
      some (some 200, "abc".toList, []) ∧
    readAs (reading ["HTTP/1.1 OK\r\nContent-Length: 0\r\n\r\n".toList]) = some (some 0, [], []) := by
  refine ⟨?_, ?_, ?_, ?_, ?_, ?_, ?_, ?_, ?_⟩ <;> decide +kernel

/-- **C237 refuted.**  Responses that the protocol allows are not read: a reason with a bracket that is not closed is a
`ValueError`, one that ends in a space a `TypeError`, a body that is not encoded (`Transfer-Encoding: identity`) is taken for
chunks, the same length given twice is a `ValueError`, and a body of 2^63 bytes an `HTTPException`. -/
theorem http_misread_refuted :
    raised (reading ["HTTP/1.1 404 Not (found\r\n".toList]) = some (.fault .valueError) ∧
    raised (reading ["HTTP/1.1 200 OK \r\n".toList]) = some (.fault .typeError) ∧
    readAs (reading ["HTTP/1.1 200 OK\r\nTransfer-Encoding: identity\r\nContent-Length: 3\r\n\r\n0\r\n".toList]) = none ∧
    raised (reading ["HTTP/1.1 200 OK\r\nContent-Length: 2\r\nContent-Length: 2\r\n\r\n".toList]) = some (.fault .valueError) ∧
    raised (reading ["HTTP/1.1 200 OK\r\nContent-Length: 9223372036854775808\r\n\r\n".toList]) = some .http := by
  refine ⟨?_, ?_, ?_, ?_, ?_⟩ <;> decide +kernel

end Verif.Props
