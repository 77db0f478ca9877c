import Verif.Model.Download
/-
What the cache should give.
-/

namespace Verif

/-- A pointer file of Git LFS: a text that begins with the address of the format and has the
hash of the file somewhere. -/
def IsPointerText (text : List Char) : Prop :=
  "version https://git-lfs.github.com".toList <+: text ∧ "oid sha256:".toList <:+: text

open Classical in
/-- The asset: what is at the media address when the repository holds a pointer only. -/
noncomputable def Remote.asset (decode : Bytes → List Char) (r : Remote) : Bytes :=
  if IsPointerText (decode r.raw) then r.media else r.raw

/-- The server or the connection fails, but not while the file is being written. -/
def Fault.early : Fault → Prop
  | .raw => True
  | .media => True
  | .chunk _ => False
  | .write _ => False

/-- The server or the connection fails (the program itself goes on: it is not killed, and the disk
takes everything). -/
def Fault.network : Fault → Prop
  | .write _ => False
  | _ => True

end Verif
