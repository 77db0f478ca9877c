import Verif.Model.Values
/-
The cache of assets (examples/common/asset_downloader.py:27-90).

Simplifications: one asset, which does not change on the server; printing and the making of
directories are left out. Decoding of bytes to text is a parameter.
-/

namespace Verif

/-- A sequence of bytes. -/
abbrev Bytes := List Nat

/-- is_lfs_pointer (lines 27-32). -/
def isLfsPointer (decode : Bytes → List Char) (content : Bytes) : Bool :=
  let text := decode content
  "version https://git-lfs.github.com".toList.isPrefixOf text &&
    (findSub "oid sha256:".toList text).isSome

/-- What is at the two addresses of an asset. -/
structure Remote where
  raw : Bytes
  media : Bytes
deriving DecidableEq

/-- Where a call is interrupted, if it is: `raw` while the raw file is asked for or received (lines
67-69), `media` while the media file is asked for (75-76), `chunk n` after `n` chunks have been
written (78-79), `write n` after `n` bytes of a normal file have been written (84). -/
inductive Fault where
  | raw
  | media
  | chunk (n : Nat)
  | write (n : Nat)
deriving DecidableEq

/-- The size of chunks (line 78). -/
def chunkSize : Nat := 8192

/-- The download itself (lines 66-87): the cache file after it (`none`: there is none), and the
content of the file whose path is returned. Opening the file for writing empties it. A fault that
does not concern the way taken changes nothing. -/
def fetchData (decode : Bytes → List Char) (remote : Remote) (cache : Option Bytes) :
    Option Fault → Option Bytes × Except Err Bytes
  | some .raw => (cache, .error (.other 0))
  | some .media =>
    if isLfsPointer decode remote.raw then (cache, .error (.other 0))
    else (some remote.raw, .ok remote.raw)
  | some (.chunk n) =>
    if isLfsPointer decode remote.raw then
      if n * chunkSize < remote.media.length then
        (some (remote.media.take (n * chunkSize)), .error (.other 0))
      else (some remote.media, .ok remote.media)
    else (some remote.raw, .ok remote.raw)
  | some (.write n) =>
    if isLfsPointer decode remote.raw then (some remote.media, .ok remote.media)
    else if n < remote.raw.length then (some (remote.raw.take n), .error (.other 0))
    else (some remote.raw, .ok remote.raw)
  | none =>
    if isLfsPointer decode remote.raw then (some remote.media, .ok remote.media)
    else (some remote.raw, .ok remote.raw)

/-- download_data (lines 35-90). -/
def downloadData (decode : Bytes → List Char) (remote : Remote) (cache : Option Bytes)
    (force : Bool) (fault : Option Fault) : Option Bytes × Except Err Bytes :=
  match cache, force with
  | some f, false => (some f, .ok f)
  | cache, _ => fetchData decode remote cache fault

/-- A history of calls, each with its `force_download` and its fault: the cache file after it, and
what the calls returned. -/
def downloadRun (decode : Bytes → List Char) (remote : Remote) :
    Option Bytes → List (Bool × Option Fault) → Option Bytes × List (Except Err Bytes)
  | cache, [] => (cache, [])
  | cache, (force, fault) :: calls =>
    let r := downloadData decode remote cache force fault
    let rest := downloadRun decode remote r.1 calls
    (rest.1, r.2 :: rest.2)

end Verif
