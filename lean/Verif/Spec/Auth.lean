import Verif.Model.Auth
/-
Independent vocabulary for HTTP basic authentication (RFC 7617, RFC 4648).
-/
namespace Verif.Spec

/-- The alphabet character of a 6-bit value. -/
def b64Char (n : Nat) : UInt8 := b64Alphabet.getD n 0

/-- Base64 encoding (RFC 4648, section 4). -/
def b64Encode : Str → Str
  | [] => []
  | [a] => [b64Char (a.toNat / 4), b64Char (a.toNat % 4 * 16), 61, 61]
  | [a, b] => [b64Char (a.toNat / 4), b64Char (a.toNat % 4 * 16 + b.toNat / 16), b64Char (b.toNat % 16 * 4), 61]
  | a :: b :: c :: t =>
    b64Char (a.toNat / 4) :: b64Char (a.toNat % 4 * 16 + b.toNat / 16) ::
      b64Char (b.toNat % 16 * 4 + c.toNat / 64) :: b64Char (c.toNat % 64) :: b64Encode t

/-- Well-formed base64 text: line breaks apart, a multiple of four characters, all from the alphabet,
except for up to two '=' at the end. -/
def B64Text (s : Str) : Prop :=
  ∃ body pad, s.filter (fun c => c ≠ 10 ∧ c ≠ 13) = body ++ pad ∧ (∀ c ∈ body, c ∈ b64Alphabet) ∧
    pad ∈ [[], [61], [61, 61]] ∧ (body ++ pad).length % 4 = 0

/-- The spellings of "basic" that are equal up to letter case (in Unicode 's' has a third form, U+017F). -/
def basicSpellings : List Str :=
  [b!"b", b!"B"].flatMap fun b => [b!"a", b!"A"].flatMap fun a => [b!"s", b!"S", [0xC5, 0xBF]].flatMap fun s =>
    [b!"i", b!"I"].flatMap fun i => [b!"c", b!"C"].map fun c => b ++ a ++ s ++ i ++ c

/-- The header is `Basic <base64>` and the base64 text decodes to `dec`. -/
def Carries (header dec : Str) : Prop :=
  ∃ scheme text, header = scheme ++ 32 :: text ∧ scheme ∈ basicSpellings ∧ b64Decode text = some dec

/-- The standard header for a user and a password. -/
def basicHeader (user pass : Str) : Str := b!"Basic " ++ b64Encode (user ++ 58 :: pass)

/-- The user name and the password a header carries: the decoded text up to the first ':' (lower-cased), and
between the first ':' and the second (or the end). -/
def Credentials (u : Str → Str) (header user pass : Str) : Prop :=
  ∃ raw rest, Carries header (raw ++ 58 :: rest) ∧ 58 ∉ raw ∧ user = toLower u raw ∧
    pass = rest.takeWhile (· != 58)

/-- Credentials the router accepts: a Go map lookup yields "" for a missing key. -/
def Accepted (u : Str → Str) (roles : GoMap Str Str) (header : Str) : Prop :=
  ∃ user pass, Credentials u header user pass ∧ user ≠ [] ∧ (roles.get? user).getD [] = pass

/-- `Check` lets requests with this header pass, without touching the response. -/
def LetsIn (u : Str → Str) (ba : BaseAuth) (header : Str) : Prop :=
  ∀ resp, ∃ log, ba.check u header resp = .ret ⟨true, log, resp⟩

/-- `Check` refuses requests with this header, with 401. -/
def Refuses (u : Str → Str) (ba : BaseAuth) (header : Str) : Prop :=
  ∀ resp, ∃ c, ba.check u header resp = .ret c ∧ c.success = false ∧ c.resp.status = 401

/-- The challenge the configuration calls ask for. -/
def challenge : List AuthOp → Str → Str
  | [], last => last
  | .setMessage m c :: t, _ => challenge t (b!"Basic realm=\"" ++ m ++ b!"\", charset=\"" ++ c ++ b!"\"")
  | _ :: t, last => challenge t last

/-- Whether authentication is on: the last SetUse (default: off). -/
def saidUse : List AuthOp → Bool → Bool
  | [], d => d
  | .setUse u :: t, _ => saidUse t u
  | _ :: t, d => saidUse t d

/-- The role table: the last SetRoles (default: empty). -/
def saidRoles : List AuthOp → GoMap Str Str → GoMap Str Str
  | [], d => d
  | .setRoles r :: t, _ => saidRoles t r
  | _ :: t, d => saidRoles t d

/-- The access function: the last SetCheckAccessFunc (`none`: nil; default: always asks). -/
def saidAccess : List AuthOp → Option (Req → Bool) → Option (Req → Bool)
  | [], d => d
  | .setCheckAccess f :: t, _ => saidAccess t f
  | _ :: t, d => saidAccess t d

/-- Whether the log function of the last SetLogFunc is nil; `none`: there is none. -/
def saidLog : List AuthOp → Option Bool → Option Bool
  | [], d => d
  | .setLog n :: t, _ => saidLog t (some n)
  | _ :: t, d => saidLog t d

end Verif.Spec
