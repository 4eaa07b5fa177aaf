import Verif.Model.StaticMain
/-
C135, the words: what HEAD has to tell about GET.  Nothing here looks into the file server.
-/
namespace Verif.Spec

/-- `head` is what a HEAD request has to get where `get` is what GET gets, `before` being the body both start from: the
status and the headers are the same, and no content comes with them; a response that is an error (4xx or 5xx) is the same
altogether. -/
structure HeadAnswers (before : Str) (get head : HttpResp) : Prop where
  status : head.status = get.status
  headers : head.headers = get.headers
  empty : get.status < 400 → head.body = before
  same : 400 ≤ get.status → head = get

end Verif.Spec
