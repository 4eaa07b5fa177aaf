import Verif.Base.Str
/-
Specification of C118: the headers a file answer is about. All others belong to whoever set them before.
-/
namespace Verif.Spec

/-- The headers that describe the content that is sent. -/
def contentHeaders : List Str :=
  [b!"Content-Type", b!"Content-Length", b!"Content-Encoding", b!"Content-Range", b!"Accept-Ranges", b!"Last-Modified",
   b!"X-Content-Type-Options"]

/-- With the one a redirect sets. -/
def fileHeaders : List Str := b!"Location" :: contentHeaders

end Verif.Spec
