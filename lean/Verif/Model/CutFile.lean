import Verif.Model.NetFile

/-!
# Saving to a file that is not written completely (src/Net.cpp lines 222-243)

The text that `save` writes is that of `Model/NetFile.lean`.  Here the file system is added: the characters arrive on the
disk in the order in which they are written, and only some of them may arrive, because the disk is full or because the
process or the machine crashes.
-/

namespace Verif.NetFile

open Verif.Text

variable {K : Type} [IntCast K] [Zero K]

/-- src/Net.cpp lines 222-229, `save(fileName)`: the content of the file afterwards.  `opens`: can the file be opened?
`space`: the number of characters for which there is room.  The state of the stream is not looked at after writing or
closing, so that a short write is not reported. -/
def saveFile (F : NumFormat K) (net : Net K) (opens : Bool) (space : ℕ) : Outcome (List Char) :=
  if opens then .ok ((save F net).take space) else .throws

/-- What is in the file when the program dies during line 224-228: the old content (`none`: no file) if that happens before
the file is opened, which empties it, otherwise the first characters of the new text. -/
def crashed (F : NumFormat K) (net : Net K) (old : Option (List Char)) : Option ℕ → Option (List Char)
  | none => old
  | some n => some ((save F net).take n)

/-- src/Net.cpp lines 236-243, `load(fileName)` into a new network: without a file an exception is thrown. -/
def LoadsFile (F : NumFormat K) (init : ℕ → K) (file : Option (List Char)) (r : Outcome (Net K)) : Prop :=
  match file with
  | none => r = .throws
  | some text => Loads F init empty (IStream.of text) r

end Verif.NetFile
