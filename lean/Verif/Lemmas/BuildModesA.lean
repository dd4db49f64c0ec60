import Verif.Lemmas.BuildModes
import Verif.Model.Layout
import Verif.Model.Dense
import Verif.Model.Select
import Verif.Model.Packed
import Verif.Model.Banded
import Verif.Model.CArray
import Verif.Model.DenseVV
import Verif.Model.CompressedVector
import Verif.Model.CompressedMatrix
/-! `Agrees` for the functions of the container models, in the order of the model files. -/
namespace Ublas
open Search
variable {α σ : Type}


/-! ## Layout -/

theorem Orient.element_agrees (o : Orient) (i si j sj : Nat) :
    Agrees (Orient.element true o i si j sj) (Orient.element false o i si j sj) := by
  unfold Orient.element; agree
instance Orient.element_agreesI (o : Orient) (i si j sj : Nat) :
    AgreesI (Orient.element true o i si j sj) (Orient.element false o i si j sj) := ⟨Orient.element_agrees o i si j sj⟩
theorem Orient.address_agrees (o : Orient) (i si j sj : Nat) :
    Agrees (Orient.address true o i si j sj) (Orient.address false o i si j sj) := by
  unfold Orient.address; agree
instance Orient.address_agreesI (o : Orient) (i si j sj : Nat) :
    AgreesI (Orient.address true o i si j sj) (Orient.address false o i si j sj) := ⟨Orient.address_agrees o i si j sj⟩

/-! ## Dense -/

theorem Dense.get_agrees (o : Orient) (m : Dense α) (i j : Nat) :
    Agrees (Dense.get true o m i j) (Dense.get false o m i j) := by
  unfold Dense.get; agree
instance Dense.get_agreesI (o : Orient) (m : Dense α) (i j : Nat) :
    AgreesI (Dense.get true o m i j) (Dense.get false o m i j) := ⟨Dense.get_agrees o m i j⟩
theorem Dense.set_agrees (o : Orient) (m : Dense α) (i j : Nat) (t : α) :
    Agrees (Dense.set true o m i j t) (Dense.set false o m i j t) := by
  unfold Dense.set; agree
instance Dense.set_agreesI (o : Orient) (m : Dense α) (i j : Nat) (t : α) :
    AgreesI (Dense.set true o m i j t) (Dense.set false o m i j t) := ⟨Dense.set_agrees o m i j t⟩
theorem Dense.erase_agrees (o : Orient) (zero : α) (m : Dense α) (i j : Nat) :
    Agrees (Dense.erase true o zero m i j) (Dense.erase false o zero m i j) := by
  unfold Dense.erase; agree
instance Dense.erase_agreesI (o : Orient) (zero : α) (m : Dense α) (i j : Nat) :
    AgreesI (Dense.erase true o zero m i j) (Dense.erase false o zero m i j) := ⟨Dense.erase_agrees o zero m i j⟩
theorem Dense.resizeBody_agrees (o : Orient) (m : Dense α) (s1 s2 : Nat) (major minor : Nat) (d : List α) :
    Agrees (Dense.resizeBody true o m s1 s2 major minor d) (Dense.resizeBody false o m s1 s2 major minor d) := by
  unfold Dense.resizeBody; agree
instance Dense.resizeBody_agreesI (o : Orient) (m : Dense α) (s1 s2 : Nat) (major minor : Nat) (d : List α) :
    AgreesI (Dense.resizeBody true o m s1 s2 major minor d) (Dense.resizeBody false o m s1 s2 major minor d) := ⟨Dense.resizeBody_agrees o m s1 s2 major minor d⟩
theorem Dense.resizePreserve_agrees (o : Orient) (m tmp : Dense α) :
    Agrees (Dense.resizePreserve true o m tmp) (Dense.resizePreserve false o m tmp) := by
  unfold Dense.resizePreserve; agree
instance Dense.resizePreserve_agreesI (o : Orient) (m tmp : Dense α) :
    AgreesI (Dense.resizePreserve true o m tmp) (Dense.resizePreserve false o m tmp) := ⟨Dense.resizePreserve_agrees o m tmp⟩
theorem Dense.resize_agrees (o : Orient) (junk : Nat → α) (m : Dense α) (s1 s2 : Nat) (preserve : Bool) :
    Agrees (Dense.resize true o junk m s1 s2 preserve) (Dense.resize false o junk m s1 s2 preserve) := by
  unfold Dense.resize; agree
instance Dense.resize_agreesI (o : Orient) (junk : Nat → α) (m : Dense α) (s1 s2 : Nat) (preserve : Bool) :
    AgreesI (Dense.resize true o junk m s1 s2 preserve) (Dense.resize false o junk m s1 s2 preserve) := ⟨Dense.resize_agrees o junk m s1 s2 preserve⟩
theorem Dense.step_agrees (o : Orient) (zero : α) (junk : Nat → α) (m : Dense α) (x1 : Op α) :
    Agrees (Dense.step true o zero junk m x1) (Dense.step false o zero junk m x1) := by
  unfold Dense.step; agree
instance Dense.step_agreesI (o : Orient) (zero : α) (junk : Nat → α) (m : Dense α) (x1 : Op α) :
    AgreesI (Dense.step true o zero junk m x1) (Dense.step false o zero junk m x1) := ⟨Dense.step_agrees o zero junk m x1⟩
theorem Dense.run_agrees (o : Orient) (zero : α) (x1 : Dense α) (x2 : List (Op α × (Nat → α))) :
    Agrees (Dense.run true o zero x1 x2) (Dense.run false o zero x1 x2) := by
  induction x2 generalizing x1 <;> (unfold Dense.run; agree)
instance Dense.run_agreesI (o : Orient) (zero : α) (x1 : Dense α) (x2 : List (Op α × (Nat → α))) :
    AgreesI (Dense.run true o zero x1 x2) (Dense.run false o zero x1 x2) := ⟨Dense.run_agrees o zero x1 x2⟩

/-! ## Select -/

theorem Range.make_agrees (start stop : Nat) :
    Agrees (Range.make true start stop) (Range.make false start stop) := by
  unfold Range.make; agree
instance Range.make_agreesI (start stop : Nat) :
    AgreesI (Range.make true start stop) (Range.make false start stop) := ⟨Range.make_agrees start stop⟩
theorem Range.at__agrees (r : Range) (i : Nat) :
    Agrees (Range.at_ true r i) (Range.at_ false r i) := by
  unfold Range.at_; agree
instance Range.at__agreesI (r : Range) (i : Nat) :
    AgreesI (Range.at_ true r i) (Range.at_ false r i) := ⟨Range.at__agrees r i⟩
theorem Range.compose_agrees (r s : Range) :
    Agrees (Range.compose true r s) (Range.compose false r s) := by
  unfold Range.compose; agree
instance Range.compose_agreesI (r s : Range) :
    AgreesI (Range.compose true r s) (Range.compose false r s) := ⟨Range.compose_agrees r s⟩
theorem Slice.at__agrees (s : Slice) (i : Nat) :
    Agrees (Slice.at_ true s i) (Slice.at_ false s i) := by
  unfold Slice.at_; agree
instance Slice.at__agreesI (s : Slice) (i : Nat) :
    AgreesI (Slice.at_ true s i) (Slice.at_ false s i) := ⟨Slice.at__agrees s i⟩
theorem Slice.composeRange_agrees (s : Slice) (r : Range) :
    Agrees (Slice.composeRange true s r) (Slice.composeRange false s r) := by
  unfold Slice.composeRange; agree
instance Slice.composeRange_agreesI (s : Slice) (r : Range) :
    AgreesI (Slice.composeRange true s r) (Slice.composeRange false s r) := ⟨Slice.composeRange_agrees s r⟩
theorem Slice.compose_agrees (s t : Slice) :
    Agrees (Slice.compose true s t) (Slice.compose false s t) := by
  unfold Slice.compose; agree
instance Slice.compose_agreesI (s t : Slice) :
    AgreesI (Slice.compose true s t) (Slice.compose false s t) := ⟨Slice.compose_agrees s t⟩
theorem Slice.iterDeref_agrees (s : Slice) (it : Nat) :
    Agrees (Slice.iterDeref true s it) (Slice.iterDeref false s it) := by
  unfold Slice.iterDeref; agree
instance Slice.iterDeref_agreesI (s : Slice) (it : Nat) :
    AgreesI (Slice.iterDeref true s it) (Slice.iterDeref false s it) := ⟨Slice.iterDeref_agrees s it⟩
theorem Indirect.at__agrees (ia : Indirect) (i : Nat) :
    Agrees (Indirect.at_ true ia i) (Indirect.at_ false ia i) := by
  unfold Indirect.at_; agree
instance Indirect.at__agreesI (ia : Indirect) (i : Nat) :
    AgreesI (Indirect.at_ true ia i) (Indirect.at_ false ia i) := ⟨Indirect.at__agrees ia i⟩
theorem Indirect.gather_agrees (ia : Indirect) (pre pre' : Nat → M Unit) (hp : ∀ k, Agrees (pre k) (pre' k)) (idx : Nat → Nat) (n : Nat) :
    Agrees (Indirect.gather true ia pre idx n) (Indirect.gather false ia pre' idx n) := by
  induction n <;> (unfold Indirect.gather; agree)
macro_rules | `(tactic| agree1) => `(tactic| (with_reducible refine Indirect.gather_agrees _ _ _ (fun _ => ?_) _ _))

theorem Indirect.composeRange_agrees (ia : Indirect) (r : Range) :
    Agrees (Indirect.composeRange true ia r) (Indirect.composeRange false ia r) := by
  unfold Indirect.composeRange; agree
instance Indirect.composeRange_agreesI (ia : Indirect) (r : Range) :
    AgreesI (Indirect.composeRange true ia r) (Indirect.composeRange false ia r) := ⟨Indirect.composeRange_agrees ia r⟩
theorem Indirect.composeSlice_agrees (ia : Indirect) (s : Slice) :
    Agrees (Indirect.composeSlice true ia s) (Indirect.composeSlice false ia s) := by
  unfold Indirect.composeSlice; agree
instance Indirect.composeSlice_agreesI (ia : Indirect) (s : Slice) :
    AgreesI (Indirect.composeSlice true ia s) (Indirect.composeSlice false ia s) := ⟨Indirect.composeSlice_agrees ia s⟩
theorem Indirect.compose_agrees (ia ib : Indirect) :
    Agrees (Indirect.compose true ia ib) (Indirect.compose false ia ib) := by
  unfold Indirect.compose; agree
instance Indirect.compose_agreesI (ia ib : Indirect) :
    AgreesI (Indirect.compose true ia ib) (Indirect.compose false ia ib) := ⟨Indirect.compose_agrees ia ib⟩
theorem Sel.at__agrees (x1 : Sel) (x2 : Nat) :
    Agrees (Sel.at_ true x1 x2) (Sel.at_ false x1 x2) := by
  unfold Sel.at_; agree
instance Sel.at__agreesI (x1 : Sel) (x2 : Nat) :
    AgreesI (Sel.at_ true x1 x2) (Sel.at_ false x1 x2) := ⟨Sel.at__agrees x1 x2⟩
theorem VRef.addr_agrees (x1 : VRef) (x2 : Nat) :
    Agrees (VRef.addr true x1 x2) (VRef.addr false x1 x2) := by
  induction x1 generalizing x2 <;> (unfold VRef.addr; agree)
instance VRef.addr_agreesI (x1 : VRef) (x2 : Nat) :
    AgreesI (VRef.addr true x1 x2) (VRef.addr false x1 x2) := ⟨VRef.addr_agrees x1 x2⟩
theorem VRef.read_agrees (p : VRef) (l : List α) (i : Nat) :
    Agrees (VRef.read true p l i) (VRef.read false p l i) := by
  unfold VRef.read; agree
instance VRef.read_agreesI (p : VRef) (l : List α) (i : Nat) :
    AgreesI (VRef.read true p l i) (VRef.read false p l i) := ⟨VRef.read_agrees p l i⟩
theorem VRef.write_agrees (p : VRef) (l : List α) (i : Nat) (v : α) :
    Agrees (VRef.write true p l i v) (VRef.write false p l i v) := by
  unfold VRef.write; agree
instance VRef.write_agreesI (p : VRef) (l : List α) (i : Nat) (v : α) :
    AgreesI (VRef.write true p l i v) (VRef.write false p l i v) := ⟨VRef.write_agrees p l i v⟩
theorem VRef.project_agrees (n : Nat) (p : VRef) (a : SelArg) :
    Agrees (VRef.project true n p a) (VRef.project false n p a) := by
  unfold VRef.project; agree
instance VRef.project_agreesI (n : Nat) (p : VRef) (a : SelArg) :
    AgreesI (VRef.project true n p a) (VRef.project false n p a) := ⟨VRef.project_agrees n p a⟩
theorem MRef.addr_agrees (x1 : MRef) (x2 : Nat) (x3 : Nat) :
    Agrees (MRef.addr true x1 x2 x3) (MRef.addr false x1 x2 x3) := by
  induction x1 generalizing x2 x3 <;> (unfold MRef.addr; agree)
instance MRef.addr_agreesI (x1 : MRef) (x2 : Nat) (x3 : Nat) :
    AgreesI (MRef.addr true x1 x2 x3) (MRef.addr false x1 x2 x3) := ⟨MRef.addr_agrees x1 x2 x3⟩
theorem MRef.read_agrees (o : Orient) (p : MRef) (m : Dense α) (i j : Nat) :
    Agrees (MRef.read true o p m i j) (MRef.read false o p m i j) := by
  unfold MRef.read; agree
instance MRef.read_agreesI (o : Orient) (p : MRef) (m : Dense α) (i j : Nat) :
    AgreesI (MRef.read true o p m i j) (MRef.read false o p m i j) := ⟨MRef.read_agrees o p m i j⟩
theorem MRef.write_agrees (o : Orient) (p : MRef) (m : Dense α) (i j : Nat) (v : α) :
    Agrees (MRef.write true o p m i j v) (MRef.write false o p m i j v) := by
  unfold MRef.write; agree
instance MRef.write_agreesI (o : Orient) (p : MRef) (m : Dense α) (i j : Nat) (v : α) :
    AgreesI (MRef.write true o p m i j v) (MRef.write false o p m i j v) := ⟨MRef.write_agrees o p m i j v⟩
theorem MRef.composeSel_agrees (x1 : Sel) (x2 : Sel) :
    Agrees (MRef.composeSel true x1 x2) (MRef.composeSel false x1 x2) := by
  unfold MRef.composeSel; agree
instance MRef.composeSel_agreesI (x1 : Sel) (x2 : Sel) :
    AgreesI (MRef.composeSel true x1 x2) (MRef.composeSel false x1 x2) := ⟨MRef.composeSel_agrees x1 x2⟩
theorem MRef.project_agrees (n1 n2 : Nat) (p : MRef) (a1 a2 : SelArg) :
    Agrees (MRef.project true n1 n2 p a1 a2) (MRef.project false n1 n2 p a1 a2) := by
  unfold MRef.project; agree
instance MRef.project_agreesI (n1 n2 : Nat) (p : MRef) (a1 a2 : SelArg) :
    AgreesI (MRef.project true n1 n2 p a1 a2) (MRef.project false n1 n2 p a1 a2) := ⟨MRef.project_agrees n1 n2 p a1 a2⟩
theorem MVRef.addr_agrees (x1 : MVRef) (x2 : Nat) :
    Agrees (MVRef.addr true x1 x2) (MVRef.addr false x1 x2) := by
  unfold MVRef.addr; agree
instance MVRef.addr_agreesI (x1 : MVRef) (x2 : Nat) :
    AgreesI (MVRef.addr true x1 x2) (MVRef.addr false x1 x2) := ⟨MVRef.addr_agrees x1 x2⟩
theorem MVRef.read_agrees (o : Orient) (p : MVRef) (m : Dense α) (i : Nat) :
    Agrees (MVRef.read true o p m i) (MVRef.read false o p m i) := by
  unfold MVRef.read; agree
instance MVRef.read_agreesI (o : Orient) (p : MVRef) (m : Dense α) (i : Nat) :
    AgreesI (MVRef.read true o p m i) (MVRef.read false o p m i) := ⟨MVRef.read_agrees o p m i⟩
theorem MVRef.write_agrees (o : Orient) (p : MVRef) (m : Dense α) (i : Nat) (v : α) :
    Agrees (MVRef.write true o p m i v) (MVRef.write false o p m i v) := by
  unfold MVRef.write; agree
instance MVRef.write_agreesI (o : Orient) (p : MVRef) (m : Dense α) (i : Nat) (v : α) :
    AgreesI (MVRef.write true o p m i v) (MVRef.write false o p m i v) := ⟨MVRef.write_agrees o p m i v⟩

/-! ## Packed -/

theorem Packed.lowerElement_agrees (o : Orient) (i si j sj : Nat) :
    Agrees (Packed.lowerElement true o i si j sj) (Packed.lowerElement false o i si j sj) := by
  unfold Packed.lowerElement; agree
instance Packed.lowerElement_agreesI (o : Orient) (i si j sj : Nat) :
    AgreesI (Packed.lowerElement true o i si j sj) (Packed.lowerElement false o i si j sj) := ⟨Packed.lowerElement_agrees o i si j sj⟩
theorem Packed.lpackedSize_agrees (x1 : LKind) (x2 : Nat) (x3 : Nat) :
    Agrees (Packed.lpackedSize true x1 x2 x3) (Packed.lpackedSize false x1 x2 x3) := by
  unfold Packed.lpackedSize; agree
instance Packed.lpackedSize_agreesI (x1 : LKind) (x2 : Nat) (x3 : Nat) :
    AgreesI (Packed.lpackedSize true x1 x2 x3) (Packed.lpackedSize false x1 x2 x3) := ⟨Packed.lpackedSize_agrees x1 x2 x3⟩
theorem Packed.lelement_agrees (o : Orient) (x1 : LKind) (x2 : Nat) (x3 : Nat) (x4 : Nat) (x5 : Nat) :
    Agrees (Packed.lelement true o x1 x2 x3 x4 x5) (Packed.lelement false o x1 x2 x3 x4 x5) := by
  unfold Packed.lelement; agree
instance Packed.lelement_agreesI (o : Orient) (x1 : LKind) (x2 : Nat) (x3 : Nat) (x4 : Nat) (x5 : Nat) :
    AgreesI (Packed.lelement true o x1 x2 x3 x4 x5) (Packed.lelement false o x1 x2 x3 x4 x5) := ⟨Packed.lelement_agrees o x1 x2 x3 x4 x5⟩
theorem Packed.packedSize_agrees (t : Tri) (si sj : Nat) :
    Agrees (Packed.packedSize true t si sj) (Packed.packedSize false t si sj) := by
  unfold Packed.packedSize; agree
instance Packed.packedSize_agreesI (t : Tri) (si sj : Nat) :
    AgreesI (Packed.packedSize true t si sj) (Packed.packedSize false t si sj) := ⟨Packed.packedSize_agrees t si sj⟩
theorem Packed.element_agrees (t : Tri) (o : Orient) (i si j sj : Nat) :
    Agrees (Packed.element true t o i si j sj) (Packed.element false t o i si j sj) := by
  unfold Packed.element; agree
instance Packed.element_agreesI (t : Tri) (o : Orient) (i si j sj : Nat) :
    AgreesI (Packed.element true t o i si j sj) (Packed.element false t o i si j sj) := ⟨Packed.element_agrees t o i si j sj⟩
theorem Packed.resizeLoop_agrees (t : Tri) (o : Orient) (ms1 ms2 : Nat) (md : List α) (s1 s2 : Nat) (td : List α) :
    Agrees (Packed.resizeLoop true t o ms1 ms2 md s1 s2 td) (Packed.resizeLoop false t o ms1 ms2 md s1 s2 td) := by
  unfold Packed.resizeLoop; agree
instance Packed.resizeLoop_agreesI (t : Tri) (o : Orient) (ms1 ms2 : Nat) (md : List α) (s1 s2 : Nat) (td : List α) :
    AgreesI (Packed.resizeLoop true t o ms1 ms2 md s1 s2 td) (Packed.resizeLoop false t o ms1 ms2 md s1 s2 td) := ⟨Packed.resizeLoop_agrees t o ms1 ms2 md s1 s2 td⟩
theorem Packed.TMat.make_agrees (t : Tri) (junk : Nat → α) (s1 s2 : Nat) :
    Agrees (Packed.TMat.make true t junk s1 s2) (Packed.TMat.make false t junk s1 s2) := by
  unfold Packed.TMat.make; agree
instance Packed.TMat.make_agreesI (t : Tri) (junk : Nat → α) (s1 s2 : Nat) :
    AgreesI (Packed.TMat.make true t junk s1 s2) (Packed.TMat.make false t junk s1 s2) := ⟨Packed.TMat.make_agrees t junk s1 s2⟩
theorem Packed.TMat.get_agrees [Zero α] [One α] (t : Tri) (o : Orient) (m : TMat α) (i j : Nat) :
    Agrees (Packed.TMat.get true t o m i j) (Packed.TMat.get false t o m i j) := by
  unfold Packed.TMat.get; agree
instance Packed.TMat.get_agreesI [Zero α] [One α] (t : Tri) (o : Orient) (m : TMat α) (i j : Nat) :
    AgreesI (Packed.TMat.get true t o m i j) (Packed.TMat.get false t o m i j) := ⟨Packed.TMat.get_agrees t o m i j⟩
theorem Packed.TMat.set_agrees (t : Tri) (o : Orient) (m : TMat α) (i j : Nat) (v : α) :
    Agrees (Packed.TMat.set true t o m i j v) (Packed.TMat.set false t o m i j v) := by
  unfold Packed.TMat.set; agree
instance Packed.TMat.set_agreesI (t : Tri) (o : Orient) (m : TMat α) (i j : Nat) (v : α) :
    AgreesI (Packed.TMat.set true t o m i j v) (Packed.TMat.set false t o m i j v) := ⟨Packed.TMat.set_agrees t o m i j v⟩
theorem Packed.TMat.erase_agrees [Zero α] (t : Tri) (o : Orient) (m : TMat α) (i j : Nat) :
    Agrees (Packed.TMat.erase true t o m i j) (Packed.TMat.erase false t o m i j) := by
  unfold Packed.TMat.erase; agree
instance Packed.TMat.erase_agreesI [Zero α] (t : Tri) (o : Orient) (m : TMat α) (i j : Nat) :
    AgreesI (Packed.TMat.erase true t o m i j) (Packed.TMat.erase false t o m i j) := ⟨Packed.TMat.erase_agrees t o m i j⟩
theorem Packed.TMat.resize_agrees (t : Tri) (o : Orient) (junk : Nat → α) (m : TMat α) (s1 s2 : Nat) (preserve : Bool) :
    Agrees (Packed.TMat.resize true t o junk m s1 s2 preserve) (Packed.TMat.resize false t o junk m s1 s2 preserve) := by
  unfold Packed.TMat.resize; agree
instance Packed.TMat.resize_agreesI (t : Tri) (o : Orient) (junk : Nat → α) (m : TMat α) (s1 s2 : Nat) (preserve : Bool) :
    AgreesI (Packed.TMat.resize true t o junk m s1 s2 preserve) (Packed.TMat.resize false t o junk m s1 s2 preserve) := ⟨Packed.TMat.resize_agrees t o junk m s1 s2 preserve⟩
theorem Packed.SMat.make_agrees (t : Tri) (junk : Nat → α) (s : Nat) :
    Agrees (Packed.SMat.make true t junk s) (Packed.SMat.make false t junk s) := by
  unfold Packed.SMat.make; agree
instance Packed.SMat.make_agreesI (t : Tri) (junk : Nat → α) (s : Nat) :
    AgreesI (Packed.SMat.make true t junk s) (Packed.SMat.make false t junk s) := ⟨Packed.SMat.make_agrees t junk s⟩
theorem Packed.SMat.cell_agrees (t : Tri) (o : Orient) (n i j : Nat) :
    Agrees (Packed.SMat.cell true t o n i j) (Packed.SMat.cell false t o n i j) := by
  unfold Packed.SMat.cell; agree
instance Packed.SMat.cell_agreesI (t : Tri) (o : Orient) (n i j : Nat) :
    AgreesI (Packed.SMat.cell true t o n i j) (Packed.SMat.cell false t o n i j) := ⟨Packed.SMat.cell_agrees t o n i j⟩
theorem Packed.SMat.get_agrees (t : Tri) (o : Orient) (m : SMat α) (i j : Nat) :
    Agrees (Packed.SMat.get true t o m i j) (Packed.SMat.get false t o m i j) := by
  unfold Packed.SMat.get; agree
instance Packed.SMat.get_agreesI (t : Tri) (o : Orient) (m : SMat α) (i j : Nat) :
    AgreesI (Packed.SMat.get true t o m i j) (Packed.SMat.get false t o m i j) := ⟨Packed.SMat.get_agrees t o m i j⟩
theorem Packed.SMat.set_agrees (t : Tri) (o : Orient) (m : SMat α) (i j : Nat) (v : α) :
    Agrees (Packed.SMat.set true t o m i j v) (Packed.SMat.set false t o m i j v) := by
  unfold Packed.SMat.set; agree
instance Packed.SMat.set_agreesI (t : Tri) (o : Orient) (m : SMat α) (i j : Nat) (v : α) :
    AgreesI (Packed.SMat.set true t o m i j v) (Packed.SMat.set false t o m i j v) := ⟨Packed.SMat.set_agrees t o m i j v⟩
theorem Packed.SMat.erase_agrees [Zero α] (t : Tri) (o : Orient) (m : SMat α) (i j : Nat) :
    Agrees (Packed.SMat.erase true t o m i j) (Packed.SMat.erase false t o m i j) := by
  unfold Packed.SMat.erase; agree
instance Packed.SMat.erase_agreesI [Zero α] (t : Tri) (o : Orient) (m : SMat α) (i j : Nat) :
    AgreesI (Packed.SMat.erase true t o m i j) (Packed.SMat.erase false t o m i j) := ⟨Packed.SMat.erase_agrees t o m i j⟩
theorem Packed.SMat.resize_agrees (t : Tri) (o : Orient) (junk : Nat → α) (m : SMat α) (s : Nat) (preserve : Bool) :
    Agrees (Packed.SMat.resize true t o junk m s preserve) (Packed.SMat.resize false t o junk m s preserve) := by
  unfold Packed.SMat.resize; agree
instance Packed.SMat.resize_agreesI (t : Tri) (o : Orient) (junk : Nat → α) (m : SMat α) (s : Nat) (preserve : Bool) :
    AgreesI (Packed.SMat.resize true t o junk m s preserve) (Packed.SMat.resize false t o junk m s preserve) := ⟨Packed.SMat.resize_agrees t o junk m s preserve⟩
theorem Packed.SMat.hget_agrees (conj : α → α) (t : Tri) (o : Orient) (m : SMat α) (i j : Nat) :
    Agrees (Packed.SMat.hget conj true t o m i j) (Packed.SMat.hget conj false t o m i j) := by
  unfold Packed.SMat.hget; agree
instance Packed.SMat.hget_agreesI (conj : α → α) (t : Tri) (o : Orient) (m : SMat α) (i j : Nat) :
    AgreesI (Packed.SMat.hget conj true t o m i j) (Packed.SMat.hget conj false t o m i j) := ⟨Packed.SMat.hget_agrees conj t o m i j⟩
theorem Packed.SMat.hinsert_agrees (conj : α → α) (t : Tri) (o : Orient) (m : SMat α) (i j : Nat) (v : α) :
    Agrees (Packed.SMat.hinsert conj true t o m i j v) (Packed.SMat.hinsert conj false t o m i j v) := by
  unfold Packed.SMat.hinsert; agree
instance Packed.SMat.hinsert_agreesI (conj : α → α) (t : Tri) (o : Orient) (m : SMat α) (i j : Nat) (v : α) :
    AgreesI (Packed.SMat.hinsert conj true t o m i j v) (Packed.SMat.hinsert conj false t o m i j v) := ⟨Packed.SMat.hinsert_agrees conj t o m i j v⟩
theorem Packed.SMat.hload_agrees (conj : α → α) (t : Tri) (o : Orient) (m : SMat α) (i j : Nat) :
    Agrees (Packed.SMat.hload conj true t o m i j) (Packed.SMat.hload conj false t o m i j) := by
  unfold Packed.SMat.hload; agree
instance Packed.SMat.hload_agreesI (conj : α → α) (t : Tri) (o : Orient) (m : SMat α) (i j : Nat) :
    AgreesI (Packed.SMat.hload conj true t o m i j) (Packed.SMat.hload conj false t o m i j) := ⟨Packed.SMat.hload_agrees conj t o m i j⟩
theorem Packed.SMat.hassign_agrees (conj : α → α) (t : Tri) (o : Orient) (m : SMat α) (i j : Nat) (v : α) :
    Agrees (Packed.SMat.hassign conj true t o m i j v) (Packed.SMat.hassign conj false t o m i j v) := by
  simp only [Packed.SMat.hassign, HCont.exec, HCont.ref, HProxy.destroy, Packed.SMat.hcont]; agree
instance Packed.SMat.hassign_agreesI (conj : α → α) (t : Tri) (o : Orient) (m : SMat α) (i j : Nat) (v : α) :
    AgreesI (Packed.SMat.hassign conj true t o m i j v) (Packed.SMat.hassign conj false t o m i j v) := ⟨Packed.SMat.hassign_agrees conj t o m i j v⟩
theorem Packed.SMat.hassignLoose_agrees (t : Tri) (o : Orient) (m : SMat α) (i j : Nat) (v : α) :
    Agrees (Packed.SMat.hassignLoose true t o m i j v) (Packed.SMat.hassignLoose false t o m i j v) := by
  unfold Packed.SMat.hassignLoose; agree
instance Packed.SMat.hassignLoose_agreesI (t : Tri) (o : Orient) (m : SMat α) (i j : Nat) (v : α) :
    AgreesI (Packed.SMat.hassignLoose true t o m i j v) (Packed.SMat.hassignLoose false t o m i j v) := ⟨Packed.SMat.hassignLoose_agrees t o m i j v⟩
theorem Packed.SMat.herase_agrees [Zero α] (t : Tri) (o : Orient) (m : SMat α) (i j : Nat) :
    Agrees (Packed.SMat.herase true t o m i j) (Packed.SMat.herase false t o m i j) := by
  unfold Packed.SMat.herase; agree
instance Packed.SMat.herase_agreesI [Zero α] (t : Tri) (o : Orient) (m : SMat α) (i j : Nat) :
    AgreesI (Packed.SMat.herase true t o m i j) (Packed.SMat.herase false t o m i j) := ⟨Packed.SMat.herase_agrees t o m i j⟩
theorem Packed.TMat.step_agrees [Zero α] (t : Tri) (o : Orient) (junk : Nat → α) (m : TMat α) (x1 : Dense.Op α) :
    Agrees (Packed.TMat.step true t o junk m x1) (Packed.TMat.step false t o junk m x1) := by
  unfold Packed.TMat.step; agree
instance Packed.TMat.step_agreesI [Zero α] (t : Tri) (o : Orient) (junk : Nat → α) (m : TMat α) (x1 : Dense.Op α) :
    AgreesI (Packed.TMat.step true t o junk m x1) (Packed.TMat.step false t o junk m x1) := ⟨Packed.TMat.step_agrees t o junk m x1⟩
theorem Packed.TMat.run_agrees [Zero α] (t : Tri) (o : Orient) (x1 : TMat α) (x2 : List (Dense.Op α × (Nat → α))) :
    Agrees (Packed.TMat.run true t o x1 x2) (Packed.TMat.run false t o x1 x2) := by
  induction x2 generalizing x1 <;> (unfold Packed.TMat.run; agree)
instance Packed.TMat.run_agreesI [Zero α] (t : Tri) (o : Orient) (x1 : TMat α) (x2 : List (Dense.Op α × (Nat → α))) :
    AgreesI (Packed.TMat.run true t o x1 x2) (Packed.TMat.run false t o x1 x2) := ⟨Packed.TMat.run_agrees t o x1 x2⟩
theorem Packed.SMat.step_agrees [Zero α] (t : Tri) (o : Orient) (junk : Nat → α) (m : SMat α) (x1 : SOp α) :
    Agrees (Packed.SMat.step true t o junk m x1) (Packed.SMat.step false t o junk m x1) := by
  unfold Packed.SMat.step; agree
instance Packed.SMat.step_agreesI [Zero α] (t : Tri) (o : Orient) (junk : Nat → α) (m : SMat α) (x1 : SOp α) :
    AgreesI (Packed.SMat.step true t o junk m x1) (Packed.SMat.step false t o junk m x1) := ⟨Packed.SMat.step_agrees t o junk m x1⟩
theorem Packed.SMat.hstep_agrees [Zero α] (conj : α → α) (t : Tri) (o : Orient) (junk : Nat → α) (m : SMat α) (x1 : SOp α) :
    Agrees (Packed.SMat.hstep conj true t o junk m x1) (Packed.SMat.hstep conj false t o junk m x1) := by
  unfold Packed.SMat.hstep; agree
instance Packed.SMat.hstep_agreesI [Zero α] (conj : α → α) (t : Tri) (o : Orient) (junk : Nat → α) (m : SMat α) (x1 : SOp α) :
    AgreesI (Packed.SMat.hstep conj true t o junk m x1) (Packed.SMat.hstep conj false t o junk m x1) := ⟨Packed.SMat.hstep_agrees conj t o junk m x1⟩
theorem Packed.SMat.run_agrees [Zero α] (t : Tri) (o : Orient) (x1 : SMat α) (x2 : List (SOp α × (Nat → α))) :
    Agrees (Packed.SMat.run true t o x1 x2) (Packed.SMat.run false t o x1 x2) := by
  induction x2 generalizing x1 <;> (unfold Packed.SMat.run; agree)
instance Packed.SMat.run_agreesI [Zero α] (t : Tri) (o : Orient) (x1 : SMat α) (x2 : List (SOp α × (Nat → α))) :
    AgreesI (Packed.SMat.run true t o x1 x2) (Packed.SMat.run false t o x1 x2) := ⟨Packed.SMat.run_agrees t o x1 x2⟩
theorem Packed.SMat.hrun_agrees [Zero α] (conj : α → α) (t : Tri) (o : Orient) (x1 : SMat α) (x2 : List (SOp α × (Nat → α))) :
    Agrees (Packed.SMat.hrun conj true t o x1 x2) (Packed.SMat.hrun conj false t o x1 x2) := by
  induction x2 generalizing x1 <;> (unfold Packed.SMat.hrun; agree)
instance Packed.SMat.hrun_agreesI [Zero α] (conj : α → α) (t : Tri) (o : Orient) (x1 : SMat α) (x2 : List (SOp α × (Nat → α))) :
    AgreesI (Packed.SMat.hrun conj true t o x1 x2) (Packed.SMat.hrun conj false t o x1 x2) := ⟨Packed.SMat.hrun_agrees conj t o x1 x2⟩

/-! ## Banded -/

theorem BMat.getIndex_agrees (o : Orient) (m : BMat α) (i j : Nat) :
    Agrees (BMat.getIndex true o m i j) (BMat.getIndex false o m i j) := by
  unfold BMat.getIndex; agree
instance BMat.getIndex_agreesI (o : Orient) (m : BMat α) (i j : Nat) :
    AgreesI (BMat.getIndex true o m i j) (BMat.getIndex false o m i j) := ⟨BMat.getIndex_agrees o m i j⟩
theorem BMat.get_agrees [Zero α] (o : Orient) (m : BMat α) (i j : Nat) :
    Agrees (BMat.get true o m i j) (BMat.get false o m i j) := by
  unfold BMat.get; agree
instance BMat.get_agreesI [Zero α] (o : Orient) (m : BMat α) (i j : Nat) :
    AgreesI (BMat.get true o m i j) (BMat.get false o m i j) := ⟨BMat.get_agrees o m i j⟩
theorem BMat.set_agrees (o : Orient) (m : BMat α) (i j : Nat) (v : α) :
    Agrees (BMat.set true o m i j v) (BMat.set false o m i j v) := by
  unfold BMat.set; agree
instance BMat.set_agreesI (o : Orient) (m : BMat α) (i j : Nat) (v : α) :
    AgreesI (BMat.set true o m i j v) (BMat.set false o m i j v) := ⟨BMat.set_agrees o m i j v⟩
theorem BMat.erase_agrees [Zero α] (o : Orient) (m : BMat α) (i j : Nat) :
    Agrees (BMat.erase true o m i j) (BMat.erase false o m i j) := by
  unfold BMat.erase; agree
instance BMat.erase_agreesI [Zero α] (o : Orient) (m : BMat α) (i j : Nat) :
    AgreesI (BMat.erase true o m i j) (BMat.erase false o m i j) := ⟨BMat.erase_agrees o m i j⟩
theorem BMat.resize_agrees (o : Orient) (junk : Nat → α) (m : BMat α) (s1 s2 l u : Nat) (preserve : Bool) :
    Agrees (BMat.resize true o junk m s1 s2 l u preserve) (BMat.resize false o junk m s1 s2 l u preserve) := by
  unfold BMat.resize; agree
instance BMat.resize_agreesI (o : Orient) (junk : Nat → α) (m : BMat α) (s1 s2 l u : Nat) (preserve : Bool) :
    AgreesI (BMat.resize true o junk m s1 s2 l u preserve) (BMat.resize false o junk m s1 s2 l u preserve) := ⟨BMat.resize_agrees o junk m s1 s2 l u preserve⟩
theorem BMat.step_agrees [Zero α] (o : Orient) (junk : Nat → α) (m : BMat α) (x1 : Op α) :
    Agrees (BMat.step true o junk m x1) (BMat.step false o junk m x1) := by
  unfold BMat.step; agree
instance BMat.step_agreesI [Zero α] (o : Orient) (junk : Nat → α) (m : BMat α) (x1 : Op α) :
    AgreesI (BMat.step true o junk m x1) (BMat.step false o junk m x1) := ⟨BMat.step_agrees o junk m x1⟩
theorem BMat.run_agrees [Zero α] (o : Orient) (x1 : BMat α) (x2 : List (Op α × (Nat → α))) :
    Agrees (BMat.run true o x1 x2) (BMat.run false o x1 x2) := by
  induction x2 generalizing x1 <;> (unfold BMat.run; agree)
instance BMat.run_agreesI [Zero α] (o : Orient) (x1 : BMat α) (x2 : List (Op α × (Nat → α))) :
    AgreesI (BMat.run true o x1 x2) (BMat.run false o x1 x2) := ⟨BMat.run_agrees o x1 x2⟩

/-! ## CompressedVector -/

theorem CVec.invariants_agrees (IB : Nat) (v : CVec α) :
    Agrees (CVec.invariants true IB v) (CVec.invariants false IB v) := by
  unfold CVec.invariants; agree
instance CVec.invariants_agreesI (IB : Nat) (v : CVec α) :
    AgreesI (CVec.invariants true IB v) (CVec.invariants false IB v) := ⟨CVec.invariants_agrees IB v⟩
theorem CVec.ctor_agrees (IB : Nat) (junk : Junk α) (size nz : Nat) :
    Agrees (CVec.ctor true IB junk size nz) (CVec.ctor false IB junk size nz) := by
  unfold CVec.ctor; agree
instance CVec.ctor_agreesI (IB : Nat) (junk : Junk α) (size nz : Nat) :
    AgreesI (CVec.ctor true IB junk size nz) (CVec.ctor false IB junk size nz) := ⟨CVec.ctor_agrees IB junk size nz⟩
theorem CVec.shrink_agrees (IB size : Nat) (idx : List Nat) (x1 : Nat) :
    Agrees (CVec.shrink true IB size idx x1) (CVec.shrink false IB size idx x1) := by
  induction x1 <;> (unfold CVec.shrink; agree)
instance CVec.shrink_agreesI (IB size : Nat) (idx : List Nat) (x1 : Nat) :
    AgreesI (CVec.shrink true IB size idx x1) (CVec.shrink false IB size idx x1) := ⟨CVec.shrink_agrees IB size idx x1⟩
theorem CVec.resize_agrees (IB : Nat) (zero : α) (junk : Junk α) (v : CVec α) (size : Nat) (preserve : Bool) :
    Agrees (CVec.resize true IB zero junk v size preserve) (CVec.resize false IB zero junk v size preserve) := by
  unfold CVec.resize; agree
instance CVec.resize_agreesI (IB : Nat) (zero : α) (junk : Junk α) (v : CVec α) (size : Nat) (preserve : Bool) :
    AgreesI (CVec.resize true IB zero junk v size preserve) (CVec.resize false IB zero junk v size preserve) := ⟨CVec.resize_agrees IB zero junk v size preserve⟩
theorem CVec.reserve_agrees (IB : Nat) (zero : α) (junk : Junk α) (v : CVec α) (nz : Nat) (preserve : Bool) :
    Agrees (CVec.reserve true IB zero junk v nz preserve) (CVec.reserve false IB zero junk v nz preserve) := by
  unfold CVec.reserve; agree
instance CVec.reserve_agreesI (IB : Nat) (zero : α) (junk : Junk α) (v : CVec α) (nz : Nat) (preserve : Bool) :
    AgreesI (CVec.reserve true IB zero junk v nz preserve) (CVec.reserve false IB zero junk v nz preserve) := ⟨CVec.reserve_agrees IB zero junk v nz preserve⟩
theorem CVec.findElement_agrees (IB : Nat) (v : CVec α) (i : Nat) :
    Agrees (CVec.findElement true IB v i) (CVec.findElement false IB v i) := by
  unfold CVec.findElement; agree
instance CVec.findElement_agreesI (IB : Nat) (v : CVec α) (i : Nat) :
    AgreesI (CVec.findElement true IB v i) (CVec.findElement false IB v i) := ⟨CVec.findElement_agrees IB v i⟩
theorem CVec.get_agrees (IB : Nat) (zero : α) (v : CVec α) (i : Nat) :
    Agrees (CVec.get true IB zero v i) (CVec.get false IB zero v i) := by
  unfold CVec.get; agree
instance CVec.get_agreesI (IB : Nat) (zero : α) (v : CVec α) (i : Nat) :
    AgreesI (CVec.get true IB zero v i) (CVec.get false IB zero v i) := ⟨CVec.get_agrees IB zero v i⟩
theorem CVec.insertElement_agrees (IB : Nat) (zero : α) (junk : Junk α) (v : CVec α) (i : Nat) (t : α) :
    Agrees (CVec.insertElement true IB zero junk v i t) (CVec.insertElement false IB zero junk v i t) := by
  unfold CVec.insertElement; agree
instance CVec.insertElement_agreesI (IB : Nat) (zero : α) (junk : Junk α) (v : CVec α) (i : Nat) (t : α) :
    AgreesI (CVec.insertElement true IB zero junk v i t) (CVec.insertElement false IB zero junk v i t) := ⟨CVec.insertElement_agrees IB zero junk v i t⟩
theorem CVec.modify_agrees (IB : Nat) (zero : α) (junk : Junk α) (v : CVec α) (i : Nat) (f : α → α) :
    Agrees (CVec.modify true IB zero junk v i f) (CVec.modify false IB zero junk v i f) := by
  unfold CVec.modify; agree
instance CVec.modify_agreesI (IB : Nat) (zero : α) (junk : Junk α) (v : CVec α) (i : Nat) (f : α → α) :
    AgreesI (CVec.modify true IB zero junk v i f) (CVec.modify false IB zero junk v i f) := ⟨CVec.modify_agrees IB zero junk v i f⟩
theorem CVec.eraseElement_agrees (IB : Nat) (v : CVec α) (i : Nat) :
    Agrees (CVec.eraseElement true IB v i) (CVec.eraseElement false IB v i) := by
  unfold CVec.eraseElement; agree
instance CVec.eraseElement_agreesI (IB : Nat) (v : CVec α) (i : Nat) :
    AgreesI (CVec.eraseElement true IB v i) (CVec.eraseElement false IB v i) := ⟨CVec.eraseElement_agrees IB v i⟩
theorem CVec.clear_agrees (IB : Nat) (v : CVec α) :
    Agrees (CVec.clear true IB v) (CVec.clear false IB v) := by
  unfold CVec.clear; agree
instance CVec.clear_agreesI (IB : Nat) (v : CVec α) :
    AgreesI (CVec.clear true IB v) (CVec.clear false IB v) := ⟨CVec.clear_agrees IB v⟩
theorem CVec.pushBack_agrees (IB : Nat) (zero : α) (junk : Junk α) (v : CVec α) (i : Nat) (t : α) :
    Agrees (CVec.pushBack true IB zero junk v i t) (CVec.pushBack false IB zero junk v i t) := by
  unfold CVec.pushBack; agree
instance CVec.pushBack_agreesI (IB : Nat) (zero : α) (junk : Junk α) (v : CVec α) (i : Nat) (t : α) :
    AgreesI (CVec.pushBack true IB zero junk v i t) (CVec.pushBack false IB zero junk v i t) := ⟨CVec.pushBack_agrees IB zero junk v i t⟩
theorem CVec.popBack_agrees (IB : Nat) (v : CVec α) :
    Agrees (CVec.popBack true IB v) (CVec.popBack false IB v) := by
  unfold CVec.popBack; agree
instance CVec.popBack_agreesI (IB : Nat) (v : CVec α) :
    AgreesI (CVec.popBack true IB v) (CVec.popBack false IB v) := ⟨CVec.popBack_agrees IB v⟩
theorem CVec.step_agrees (IB : Nat) (zero : α) (junk : Junk α) (v : CVec α) (x1 : CVOp α) :
    Agrees (CVec.step true IB zero junk v x1) (CVec.step false IB zero junk v x1) := by
  unfold CVec.step; agree
instance CVec.step_agreesI (IB : Nat) (zero : α) (junk : Junk α) (v : CVec α) (x1 : CVOp α) :
    AgreesI (CVec.step true IB zero junk v x1) (CVec.step false IB zero junk v x1) := ⟨CVec.step_agrees IB zero junk v x1⟩
theorem CVec.run_agrees (IB : Nat) (zero : α) (x1 : CVec α) (x2 : List (CVOp α × Junk α)) :
    Agrees (CVec.run true IB zero x1 x2) (CVec.run false IB zero x1 x2) := by
  induction x2 generalizing x1 <;> (unfold CVec.run; agree)
instance CVec.run_agreesI (IB : Nat) (zero : α) (x1 : CVec α) (x2 : List (CVOp α × Junk α)) :
    AgreesI (CVec.run true IB zero x1 x2) (CVec.run false IB zero x1 x2) := ⟨CVec.run_agrees IB zero x1 x2⟩
theorem CVec.deref_agrees (IB : Nat) (v : CVec α) (it : Nat) :
    Agrees (CVec.deref true IB v it) (CVec.deref false IB v it) := by
  unfold CVec.deref; agree
instance CVec.deref_agreesI (IB : Nat) (v : CVec α) (it : Nat) :
    AgreesI (CVec.deref true IB v it) (CVec.deref false IB v it) := ⟨CVec.deref_agrees IB v it⟩
theorem CVec.traverseFrom_agrees (IB : Nat) (v : CVec α) (i : Nat) :
    Agrees (CVec.traverseFrom true IB v i) (CVec.traverseFrom false IB v i) := by
  unfold CVec.traverseFrom; agree
instance CVec.traverseFrom_agreesI (IB : Nat) (v : CVec α) (i : Nat) :
    AgreesI (CVec.traverseFrom true IB v i) (CVec.traverseFrom false IB v i) := ⟨CVec.traverseFrom_agrees IB v i⟩

/-! ## CompressedMatrix -/

theorem CMat.invariants_agrees (o : Orient) (IB : Nat) (v : CMat α) :
    Agrees (CMat.invariants true o IB v) (CMat.invariants false o IB v) := by
  unfold CMat.invariants; agree
instance CMat.invariants_agreesI (o : Orient) (IB : Nat) (v : CMat α) :
    AgreesI (CMat.invariants true o IB v) (CMat.invariants false o IB v) := ⟨CMat.invariants_agrees o IB v⟩
theorem CMat.ctor_agrees (o : Orient) (IB : Nat) (junk : Junk α) (r c nz : Nat) :
    Agrees (CMat.ctor true o IB junk r c nz) (CMat.ctor false o IB junk r c nz) := by
  unfold CMat.ctor; agree
instance CMat.ctor_agreesI (o : Orient) (IB : Nat) (junk : Junk α) (r c nz : Nat) :
    AgreesI (CMat.ctor true o IB junk r c nz) (CMat.ctor false o IB junk r c nz) := ⟨CMat.ctor_agrees o IB junk r c nz⟩
theorem CMat.resize_agrees (o : Orient) (IB : Nat) (junk : Junk α) (v : CMat α) (r c : Nat) (preserve : Bool) :
    Agrees (CMat.resize true o IB junk v r c preserve) (CMat.resize false o IB junk v r c preserve) := by
  unfold CMat.resize; agree
instance CMat.resize_agreesI (o : Orient) (IB : Nat) (junk : Junk α) (v : CMat α) (r c : Nat) (preserve : Bool) :
    AgreesI (CMat.resize true o IB junk v r c preserve) (CMat.resize false o IB junk v r c preserve) := ⟨CMat.resize_agrees o IB junk v r c preserve⟩
theorem CMat.reserve_agrees (o : Orient) (IB : Nat) (zero : α) (junk : Junk α) (v : CMat α) (nz : Nat) (preserve : Bool) :
    Agrees (CMat.reserve true o IB zero junk v nz preserve) (CMat.reserve false o IB zero junk v nz preserve) := by
  unfold CMat.reserve; agree
instance CMat.reserve_agreesI (o : Orient) (IB : Nat) (zero : α) (junk : Junk α) (v : CMat α) (nz : Nat) (preserve : Bool) :
    AgreesI (CMat.reserve true o IB zero junk v nz preserve) (CMat.reserve false o IB zero junk v nz preserve) := ⟨CMat.reserve_agrees o IB zero junk v nz preserve⟩
theorem CMat.findElement_agrees (o : Orient) (IB : Nat) (v : CMat α) (i j : Nat) :
    Agrees (CMat.findElement true o IB v i j) (CMat.findElement false o IB v i j) := by
  unfold CMat.findElement; agree
instance CMat.findElement_agreesI (o : Orient) (IB : Nat) (v : CMat α) (i j : Nat) :
    AgreesI (CMat.findElement true o IB v i j) (CMat.findElement false o IB v i j) := ⟨CMat.findElement_agrees o IB v i j⟩
theorem CMat.get_agrees (o : Orient) (IB : Nat) (zero : α) (v : CMat α) (i j : Nat) :
    Agrees (CMat.get true o IB zero v i j) (CMat.get false o IB zero v i j) := by
  unfold CMat.get; agree
instance CMat.get_agreesI (o : Orient) (IB : Nat) (zero : α) (v : CMat α) (i j : Nat) :
    AgreesI (CMat.get true o IB zero v i j) (CMat.get false o IB zero v i j) := ⟨CMat.get_agrees o IB zero v i j⟩
theorem CMat.openTo_agrees (IB : Nat) (v : CMat α) (n : Nat) :
    Agrees (CMat.openTo true IB v n) (CMat.openTo false IB v n) := by
  unfold CMat.openTo; agree
instance CMat.openTo_agreesI (IB : Nat) (v : CMat α) (n : Nat) :
    AgreesI (CMat.openTo true IB v n) (CMat.openTo false IB v n) := ⟨CMat.openTo_agrees IB v n⟩
theorem CMat.bump_agrees (g : Nat → Nat) (idx1 : List Nat) (e1 filled1 : Nat) :
    Agrees (CMat.bump true g idx1 e1 filled1) (CMat.bump false g idx1 e1 filled1) := by
  unfold CMat.bump; agree
instance CMat.bump_agreesI (g : Nat → Nat) (idx1 : List Nat) (e1 filled1 : Nat) :
    AgreesI (CMat.bump true g idx1 e1 filled1) (CMat.bump false g idx1 e1 filled1) := ⟨CMat.bump_agrees g idx1 e1 filled1⟩
theorem CMat.insertElement_agrees (o : Orient) (IB : Nat) (zero : α) (junk : Junk α) (v : CMat α) (i j : Nat) (t : α) :
    Agrees (CMat.insertElement true o IB zero junk v i j t) (CMat.insertElement false o IB zero junk v i j t) := by
  unfold CMat.insertElement; agree
instance CMat.insertElement_agreesI (o : Orient) (IB : Nat) (zero : α) (junk : Junk α) (v : CMat α) (i j : Nat) (t : α) :
    AgreesI (CMat.insertElement true o IB zero junk v i j t) (CMat.insertElement false o IB zero junk v i j t) := ⟨CMat.insertElement_agrees o IB zero junk v i j t⟩
theorem CMat.modify_agrees (o : Orient) (IB : Nat) (zero : α) (junk : Junk α) (v : CMat α) (i j : Nat) (f : α → α) :
    Agrees (CMat.modify true o IB zero junk v i j f) (CMat.modify false o IB zero junk v i j f) := by
  unfold CMat.modify; agree
instance CMat.modify_agreesI (o : Orient) (IB : Nat) (zero : α) (junk : Junk α) (v : CMat α) (i j : Nat) (f : α → α) :
    AgreesI (CMat.modify true o IB zero junk v i j f) (CMat.modify false o IB zero junk v i j f) := ⟨CMat.modify_agrees o IB zero junk v i j f⟩
theorem CMat.trim_agrees (bound : Nat) (x1 : Nat) (x2 : List Nat) :
    Agrees (CMat.trim true bound x1 x2) (CMat.trim false bound x1 x2) := by
  induction x1 using Nat.strongRecOn generalizing x2 with
  | ind n ih =>
    unfold CMat.trim
    split
    · refine Agrees.bind Agrees.rd fun _ => Agrees.ite (fun _ => Agrees.bind Agrees.wr fun _ => ih _ (by omega) _) (fun _ => Agrees.rfl)
    · exact Agrees.error
instance CMat.trim_agreesI (bound : Nat) (x1 : Nat) (x2 : List Nat) :
    AgreesI (CMat.trim true bound x1 x2) (CMat.trim false bound x1 x2) := ⟨CMat.trim_agrees bound x1 x2⟩
theorem CMat.eraseElement_agrees (o : Orient) (IB : Nat) (v : CMat α) (i j : Nat) :
    Agrees (CMat.eraseElement true o IB v i j) (CMat.eraseElement false o IB v i j) := by
  unfold CMat.eraseElement; agree
instance CMat.eraseElement_agreesI (o : Orient) (IB : Nat) (v : CMat α) (i j : Nat) :
    AgreesI (CMat.eraseElement true o IB v i j) (CMat.eraseElement false o IB v i j) := ⟨CMat.eraseElement_agrees o IB v i j⟩
theorem CMat.clear_agrees (o : Orient) (IB : Nat) (v : CMat α) :
    Agrees (CMat.clear true o IB v) (CMat.clear false o IB v) := by
  unfold CMat.clear; agree
instance CMat.clear_agreesI (o : Orient) (IB : Nat) (v : CMat α) :
    AgreesI (CMat.clear true o IB v) (CMat.clear false o IB v) := ⟨CMat.clear_agrees o IB v⟩
theorem CMat.pushBack_agrees (o : Orient) (IB : Nat) (zero : α) (junk : Junk α) (v : CMat α) (i j : Nat) (t : α) :
    Agrees (CMat.pushBack true o IB zero junk v i j t) (CMat.pushBack false o IB zero junk v i j t) := by
  unfold CMat.pushBack; agree
instance CMat.pushBack_agreesI (o : Orient) (IB : Nat) (zero : α) (junk : Junk α) (v : CMat α) (i j : Nat) (t : α) :
    AgreesI (CMat.pushBack true o IB zero junk v i j t) (CMat.pushBack false o IB zero junk v i j t) := ⟨CMat.pushBack_agrees o IB zero junk v i j t⟩
theorem CMat.popBack_agrees (o : Orient) (IB : Nat) (v : CMat α) :
    Agrees (CMat.popBack true o IB v) (CMat.popBack false o IB v) := by
  unfold CMat.popBack; agree
instance CMat.popBack_agreesI (o : Orient) (IB : Nat) (v : CMat α) :
    AgreesI (CMat.popBack true o IB v) (CMat.popBack false o IB v) := ⟨CMat.popBack_agrees o IB v⟩
theorem CMat.complete_agrees (o : Orient) (IB : Nat) (v : CMat α) :
    Agrees (CMat.complete true o IB v) (CMat.complete false o IB v) := by
  unfold CMat.complete; agree
instance CMat.complete_agreesI (o : Orient) (IB : Nat) (v : CMat α) :
    AgreesI (CMat.complete true o IB v) (CMat.complete false o IB v) := ⟨CMat.complete_agrees o IB v⟩
theorem CMat.step_agrees (o : Orient) (IB : Nat) (zero : α) (junk : Junk α) (v : CMat α) (x1 : CMOp α) :
    Agrees (CMat.step true o IB zero junk v x1) (CMat.step false o IB zero junk v x1) := by
  unfold CMat.step; agree
instance CMat.step_agreesI (o : Orient) (IB : Nat) (zero : α) (junk : Junk α) (v : CMat α) (x1 : CMOp α) :
    AgreesI (CMat.step true o IB zero junk v x1) (CMat.step false o IB zero junk v x1) := ⟨CMat.step_agrees o IB zero junk v x1⟩
theorem CMat.run_agrees (o : Orient) (IB : Nat) (zero : α) (x1 : CMat α) (x2 : List (CMOp α × Junk α)) :
    Agrees (CMat.run true o IB zero x1 x2) (CMat.run false o IB zero x1 x2) := by
  induction x2 generalizing x1 <;> (unfold CMat.run; agree)
instance CMat.run_agreesI (o : Orient) (IB : Nat) (zero : α) (x1 : CMat α) (x2 : List (CMOp α × Junk α)) :
    AgreesI (CMat.run true o IB zero x1 x2) (CMat.run false o IB zero x1 x2) := ⟨CMat.run_agrees o IB zero x1 x2⟩

end Ublas
