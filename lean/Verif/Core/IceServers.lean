import Verif.Iam.Record

/-!
# The ICE servers of an answer, in memory — model

`parse_response` and the cleanup of `src/core/nc_attacher_ice_servers.c`, where every request for memory may fail.

Simplifications: the decoding of CBOR is the subject of C71 and C72; here an answer is the array it decodes to, where a field that is
missing, is not a text, or is longer than 4096 bytes, is `none`. Answers whose elements are not maps, or which end within one, are
left to C71. The memory is that of `Iam/Record`: a block for each string, and one for each element of an `nn_vector`, which is not in
the repository; a vector that was not initialised must not be released.
-/

namespace Verif.Core.Ice
open Verif.Iam.Record

/-- An element of `Urls`, and whether the parser gets past it. -/
structure UrlIn where
  text : Option String
  next : Bool := true
  deriving DecidableEq, Repr

/-- `Urls`: not there, something else than an array, or an array; `ends`: the parser gets past it and past its map. -/
inductive Urls
  | missing
  | other
  | array (l : List UrlIn) (ends : Bool)
  deriving DecidableEq, Repr

/-- A map of the answer. -/
structure Entry where
  username : Option String
  credential : Option String
  urls : Urls
  deriving DecidableEq, Repr

/-- A url in a vector. -/
structure Url where
  slot : Nat
  str : Str
  deriving DecidableEq, Repr

/-- `struct nc_attacher_ice_server`, nc_attacher.h:76-80. -/
structure Server where
  username : Option Str
  credential : Option Str
  urls : List Url
  deriving DecidableEq, Repr

/-- A server in the vector of the request. -/
structure Slot where
  slot : Nat
  server : Server
  deriving DecidableEq, Repr

/-- `nc_cbor_copy_text_string`, nc_cbor.c:5-28. -/
def copyText (m : Mem) : Option String → Option Str × Mem
  | none => (none, m)
  | some s => strdup m s

/-- A url of `ice_server_clean` and its place in the vector. -/
def freeUrl (m : Mem) (u : Url) : Mem := free (free m u.str.blk) u.slot

/-- `ice_server_clean`, nc_attacher_ice_servers.c:21-29, of a server whose vector is initialised. -/
def clean (m : Mem) (s : Server) : Mem := freeStr (freeStr (s.urls.foldl freeUrl m) s.username) s.credential

/-- One server of `nc_attacher_ice_servers_ctx_deinit`. -/
def freeSlot (m : Mem) (s : Slot) : Mem := free (clean m s.server) s.slot

/-- `nc_attacher_ice_servers_ctx_deinit`, nc_attacher_ice_servers.c:41-48. -/
def deinit (m : Mem) (l : List Slot) : Mem := l.foldl freeSlot m

/-- The loop over `Urls`, nc_attacher_ice_servers.c:217-228. A url which does not get into the vector is not given back. -/
def addUrls (m : Mem) (urls : List Url) : List UrlIn → Bool × List Url × Mem
  | [] => (true, urls, m)
  | u :: l =>
    match copyText m u.text with
    | (none, m) => (false, urls, m)
    | (some s, m) =>
      match alloc m with
      | (none, m) => (false, urls, m)
      | (some b, m) => if u.next then addUrls m (urls ++ [⟨b, s⟩]) l else (false, urls ++ [⟨b, s⟩], m)

/-- `Username` and `Credential`, nc_attacher_ice_servers.c:202-205: `||` stops at the first which fails. -/
def copyNames (m : Mem) (e : Entry) : Option Str × Option Str × Mem :=
  match copyText m e.username with
  | (none, m) => (none, none, m)
  | (some u, m) =>
    match copyText m e.credential with
    | (c, m) => (some u, c, m)

inductive Res
  | ok
  | failed
  /-- a vector is released that was not initialised -/
  | undefined
  deriving DecidableEq, Repr

/-- One map of the answer, nc_attacher_ice_servers.c:181-240; the server if it gets into the vector. -/
def parseEntry (m : Mem) (e : Entry) : Res × Option Slot × Mem :=
  match e.urls with
  | .missing => (.failed, none, m)
  | .other =>
    match copyNames m e with
    | (_, _, m) => (.undefined, none, m)
  | .array l ends =>
    match copyNames m e with
    | (u, c, m) =>
      match addUrls m [] l with
      | (false, urls, m) => (.failed, none, clean m ⟨u, c, urls⟩)
      | (true, urls, m) =>
        if ends then
          match alloc m with
          | (none, m) => (.failed, none, clean m ⟨u, c, urls⟩)
          | (some b, m) => (.ok, some ⟨b, ⟨u, c, urls⟩⟩, m)
        else (.failed, none, clean m ⟨u, c, urls⟩)

/-- `parse_response`, nc_attacher_ice_servers.c:166-249. `ends`: the parser gets past the whole array. -/
def parse (m : Mem) (servers : List Slot) (ends : Bool) : List Entry → Res × List Slot × Mem
  | [] => (if ends then .ok else .failed, servers, m)
  | e :: l =>
    match parseEntry m e with
    | (.ok, some s, m) => parse m (servers ++ [s]) ends l
    | (.ok, none, m) => (.failed, servers, m)
    | (.failed, _, m) => (.failed, servers, m)
    | (.undefined, _, m) => (.undefined, servers, m)

end Verif.Core.Ice
