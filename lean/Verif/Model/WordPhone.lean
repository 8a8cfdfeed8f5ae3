import Verif.Model.Tier
/-!
# Words and phones (`sequences/word_and_phone.py`)

The convenience names of `Word` and `Phone` for the operations of all intervals.
-/
namespace ATG

/-- `Phone.set_word` (`sequences/word_and_phone.py:56-65`) -/
def setWord (x w : Ref) : M Unit := setSuper x w

/-- `Phone.inword` (`sequences/word_and_phone.py:67-69`) -/
def inword (h : Heap) (x : Ref) : Option Ref := h.sup x

/-- `Word.set_phones` (`sequences/word_and_phone.py:111-117`) for a list that no word owns -/
def setPhones (w : Ref) (ps : List Ref) : M Unit := setSubsetList w ps

/-- `Word.phone_list` (`sequences/word_and_phone.py:119-121`) -/
def phoneList (h : Heap) (w : Ref) : List Ref := (h.subs w).vals

/-- `Word.phones` (`sequences/word_and_phone.py:123-125`): the labels -/
def phones (h : Heap) (w : Ref) : List String := subLabels h w

/-- `for p in ps: p.set_word(w)` -/
def setWords (w : Ref) (ps : List Ref) : M Unit := M.forL ps fun x => setWord x w

end ATG
