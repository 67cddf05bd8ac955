import Verif.Spec.Session
import Verif.Spec.Resaved
import Verif.Spec.ForeignCells
import Verif.Spec.Cell

/-
Specification vocabulary: files of other programs whose tables are changed through their columns.
-/

namespace Astro.Spec

/-- The bytes from `off` on are replaced by `s`. -/
def overwrite (d : Str) (off : Nat) (s : Str) : Str := d.take off ++ s ++ d.drop (off + s.length)

variable {F : FloatText} {G : StreamText} {tyA : Nat → Str → AsciiTag} {tyB : Nat → Str → BinTag}

/-- Statements that only look at a column. -/
inductive Looks : SOp F G tyA tyB → Prop
  | readAscii (k : Nat) (name : Str) (row : Nat) : Looks (.ascii k (.read name row))
  | loopAscii (k : Nat) (name : Str) : Looks (.ascii k (.iterate name))
  | readBinary (k : Nat) (name : Str) (row : Nat) : Looks (.binary k (.read name row))
  | loopBinary (k : Nat) (name : Str) : Looks (.binary k (.iterate name))

/-- The statement changed a value. -/
inductive Changed : SOut F G tyA tyB → Prop
  | ascii (k : Nat) : Changed (.ascii k (.ok (.done (.ok ()))))
  | binary (k : Nat) : Changed (.binary k (.ok (.done (.ok ()))))

/-- The file of the HDUs `us` is to become the file of the HDUs `vs` by these statements: the first column of the name gets the value in that row, that is, the bytes of its field
are replaced by those of the value, which have exactly the size of the field (binary tables) or are completed by blanks in front (ASCII tables).  In ASCII tables no
byte of white space may stand at the ends of the value; for `column[row] = x` the field must hold a value of the type before. -/
inductive EditedTo (F : FloatText) (G : StreamText) (tyA : Nat → Str → AsciiTag) (tyB : Nat → Str → BinTag) :
    List ForeignHdu → List (SOp F G tyA tyB) → List ForeignHdu → Prop
  | done (us : List ForeignHdu) : EditedTo F G tyA tyB us [] us
  | look {us vs : List ForeignHdu} {op : SOp F G tyA tyB} {ops : List (SOp F G tyA tyB)} : Looks op → EditedTo F G tyA tyB us ops vs → EditedTo F G tyA tyB us (op :: ops) vs
  | binary {us vs : List ForeignHdu} {ops : List (SOp F G tyA tyB)} (k : Nat) (u : ForeignHdu) (rowLen rows : Nat) (cols : List (Nat × Byte)) (name : Str) (j row : Nat)
      (c : Nat × Byte) (x : (tyB k name).El) (s : Str) (op : VOp binFamily (tyB k)) :
      us[k]? = some u → BinaryTableCards F u.cards rowLen rows 0 cols → cols[j]? = some c → FirstCalled u.cards name j → row < rows →
      Encodes (tyB k name) x s → s.length = fieldBytes c →
      (op = .write name row x ∨ op = .assign name row x ∧ tyB k name ≠ ⟨.pair, true⟩ ∧
        ∃ y, HasCount c.1 (tyB k name) y ∧ Encodes (tyB k name) y (binaryField u.data rowLen cols row j c)) →
      EditedTo F G tyA tyB (us.set k ⟨u.cards, overwrite u.data (row * rowLen + ((columnBytes cols).take j).sum) s⟩) ops vs →
      EditedTo F G tyA tyB us (.binary k op :: ops) vs
  | ascii {us vs : List ForeignHdu} {ops : List (SOp F G tyA tyB)} (k : Nat) (u : ForeignHdu) (rowLen rows : Nat) (cols : List (Nat × Nat)) (name : Str) (j row : Nat)
      (c : Nat × Nat) (x : (tyA k name).El) (s f : Str) (op : VOp (asciiFamily F G) (tyA k)) :
      us[k]? = some u → AsciiTableCards F u.cards rowLen rows 0 cols → cols[j]? = some c → FirstCalled u.cards name j → row < rows →
      asciiSer G (tyA k name) x = s → rightJustified c.2 s f → NoOuterWhite s →
      (op = .write name row x ∨ op = .assign name row x ∧ ∃ t y, IsTrim (asciiField u.data rowLen row c) t ∧ ∀ n, asciiDeser F (tyA k name) t n = .ok y) →
      EditedTo F G tyA tyB (us.set k ⟨u.cards, overwrite u.data (row * rowLen + c.1 - 1) f⟩) ops vs →
      EditedTo F G tyA tyB us (.ascii k op :: ops) vs

end Astro.Spec
