/-
Specification of the encoding of text in files: UTF-8 as defined in Lean's library (`String.utf8EncodeChar`), independent of the encoder and
decoder of the model.
-/
import Verif.Model.Text
namespace GC

/-- The UTF-8 bytes of a text. -/
def utf8 (t : Text) : List UInt8 := t.flatMap String.utf8EncodeChar

/-- The bytes are the UTF-8 encoding of some text. -/
def IsUtf8 (bs : List UInt8) : Prop := ∃ t, utf8 t = bs

end GC
