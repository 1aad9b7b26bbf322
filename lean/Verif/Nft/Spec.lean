import Verif.Nft.Client

/-!
# What the user of the file transfer program is to see
-/

namespace Verif.Nft

/-- The entries reported, of those on the disk: for a listing, all that can be read; for a copy, files only. -/
def reported (dirop : Bool) (es : List Entry) : List Entry :=
  es.filter fun e => e.there && e.readable && (dirop || !e.isdir)

/-- There is something to report, or nothing found for a name with a `*` in it is no error. -/
def Found (dirop : Bool) (g : Glob) : Prop :=
  reported dirop g.found ≠ [] ∨ (g.found = [] ∧ g.searchable = true ∧ 42 ∈ g.bn) ∨
    ∃ e, g.found.getLast? = some e ∧ 42 ∈ e.bn

/-- A listing: the directory where it changes, and each entry with its size in bytes. -/
def listing (strip : Str → Str) (spec : Str) : Option Str → List Entry → List Ev
  | _, [] => []
  | cur, e :: es =>
    (if cur = some e.dn then [] else [.heading [] (strip e.dn ++ [47]) spec]) ++
      .entry e.mode e.owner e.bytes.length (clean e) :: listing strip spec (some e.dn) es

/-- The bytes of a file with zeros up to a multiple of 512. -/
def padded (b : Bytes) : Bytes := b ++ List.replicate ((512 - b.length % 512) % 512) 0

/-- The files written: those said yes to. -/
def copies (dest : Str) (isdir : Bool) : List Entry → List Ans → List Ev
  | [], _ => []
  | _ :: es, .no :: as => copies dest isdir es as
  | e :: es, as => .wrote (if isdir then joinPath dest (clean e) else dest) (padded e.bytes) :: copies dest isdir es as.tail

/-- What a command shows and does. -/
def Cmd.result (h : Host) : Cmd → List Ev
  | .dir spec => listing h.strip spec none (reported true (h.disk true spec).found)
  | .copy spec dest isdir as => copies dest isdir (reported false (h.disk false spec).found) as

/-- A listing of something that is there, or a copy by a name with wild cards, with answers yes and no. -/
def Cmd.Good (h : Host) : Cmd → Prop
  | .dir spec => Found true (h.disk true spec)
  | .copy spec _ _ as => Found false (h.disk false spec) ∧ (h.disk false spec).wild = true ∧ ∀ a ∈ as, a = .yes ∨ a = .no

end Verif.Nft
