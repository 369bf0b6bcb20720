/-!
Model of the translation between paths and URIs (language_server/src/feature.cpp:27-104).

The library for URIs (cpp-netlib/uri, cmake/external_uri.cmake) is not part of /repo. `encodeChar`, `decode` and `split` model
what its functions do according to RFC 3986, which it implements: unreserved characters are kept, others become `%` and two
hexadecimal digits, and a URI is split at its delimiters. The exceptions it throws for malformed URIs are `none`.
-/
namespace Verif.Lsp.Uri

/-- `char` as an unsigned number. -/
abbrev Byte := Fin 256

/-- The code of a character. -/
abbrev ch (c : Char) : Byte := Fin.ofNat 256 c.toNat

/-- A text of ASCII characters. -/
def str (s : String) : List Byte := s.toList.map ch

/-- The characters RFC 3986 calls unreserved. -/
def unreserved (c : Byte) : Bool :=
  (decide (ch 'a' ≤ c) && decide (c ≤ ch 'z')) || (decide (ch 'A' ≤ c) && decide (c ≤ ch 'Z')) || (decide (ch '0' ≤ c) && decide (c ≤ ch '9'))
    || [ch '-', ch '.', ch '_', ch '~'].contains c

/-- A hexadecimal digit of a number below 16. -/
def hexDigit (n : Nat) : Byte := if n < 10 then Fin.ofNat 256 (48 + n) else Fin.ofNat 256 (55 + n)

/-- The value of a hexadecimal digit. -/
def hexValue (c : Byte) : Option Nat :=
  if 48 ≤ c.val ∧ c.val ≤ 57 then some (c.val - 48)
  else if 65 ≤ c.val ∧ c.val ≤ 70 then some (c.val - 55)
  else if 97 ≤ c.val ∧ c.val ≤ 102 then some (c.val - 87)
  else none

/-- `network::detail::encode_char(c, out, ignore)`. -/
def encodeChar (ignore : List Byte) (c : Byte) : List Byte :=
  if unreserved c || ignore.contains c then [c] else [ch '%', hexDigit (c.val / 16), hexDigit (c.val % 16)]

/-- `network::detail::decode`; `none` is the exception for an incomplete or malformed escape. -/
def decode : List Byte → Option (List Byte)
  | [] => some []
  | c :: r =>
    if c = ch '%' then
      match r with
      | a :: b :: r' => match hexValue a, hexValue b with
        | some x, some y => (decode r').map (Fin.ofNat 256 (16 * x + y) :: ·)
        | _, _ => none
      | _ => none
    else (decode r).map (c :: ·)

/-- The parts of a URI used: `scheme:[//authority]path`. -/
structure Parts where
  scheme : List Byte
  authority : Option (List Byte)
  path : List Byte
deriving DecidableEq, Repr

/-- The characters that end the path. -/
def isEnd (c : Byte) : Bool := c == ch '?' || c == ch '#'

/-- What follows the scheme. -/
def splitRest (scheme rest : List Byte) : Parts :=
  match rest with
  | a :: b :: r =>
    if a == ch '/' && b == ch '/' then
      ⟨scheme, some (r.takeWhile fun c => !(c == ch '/' || isEnd c)), (r.dropWhile fun c => !(c == ch '/' || isEnd c)).takeWhile fun c => !isEnd c⟩
    else ⟨scheme, none, rest.takeWhile fun c => !isEnd c⟩
  | _ => ⟨scheme, none, rest.takeWhile fun c => !isEnd c⟩

/-- The constructor of `network::uri` (RFC 3986, appendix B); `none` if there is no scheme. That the parts consist of allowed
characters is not checked here. -/
def split (u : List Byte) : Option Parts :=
  if u.contains (ch ':') then
    some (splitRest (u.takeWhile fun c => !(c == ch ':')) ((u.dropWhile fun c => !(c == ch ':')).drop 1))
  else none

/-- `tolower` on ASCII. -/
def lower (c : Byte) : Byte := if 65 ≤ c.val ∧ c.val ≤ 90 then Fin.ofNat 256 (c.val + 32) else c

/-- `auth_path[0] = tolower(auth_path[0])`. -/
def lowerFirst : List Byte → List Byte
  | [] => []
  | c :: r => lower c :: r

/-- `feature::uri_to_path` (feature.cpp:29-72). `norm` is `utils::path::lexically_normal(…).string()`; `win` is
`utils::platform::is_windows()`. -/
def uriToPath (win : Bool) (norm : List Byte → List Byte) (uri : List Byte) : Option (List Byte) :=
  match split uri with
  | none => none
  | some u =>
    if u.scheme = str "untitled" then some uri
    else if u.scheme ≠ str "file" then some []
    else if u.path = [] then some []
    else (decode (localPart win u)).map norm
where
  /-- `auth_path` (feature.cpp:47-69). -/
  localPart (win : Bool) (u : Parts) : List Byte :=
    if u.authority.getD [] ≠ [] then (if win then str "//" else []) ++ u.authority.getD [] ++ u.path
    else if win then lowerFirst (u.path.drop 1) else u.path

/-- The characters not encoded (feature.cpp:87). -/
def kept : List Byte := str "/.%;="

/-- `if (c == '\\') c = '/'` (feature.cpp:85-86). -/
def toSlash (c : Byte) : Byte := if c = ch '\\' then ch '/' else c

/-- The loop of `path_to_uri` (feature.cpp:83-88). -/
def encodePath (p : List Byte) : List Byte := p.flatMap fun c => encodeChar kept (toSlash c)

/-- `feature::path_to_uri` (feature.cpp:74-104). -/
def pathToUri (win : Bool) (p : List Byte) : List Byte :=
  if (str "untitled").isPrefixOf p then p
  else if win then
    if (str "//").isPrefixOf (encodePath p) then str "file:" ++ encodePath p else str "file:///" ++ encodePath p
  else str "file://" ++ encodePath p

end Verif.Lsp.Uri
