import Verif.Lemmas.BuildModesA
import Verif.Model.CArray
import Verif.Model.DenseVV
import Verif.Model.SymAdaptor
import Verif.Model.PackedAdaptor
import Verif.Model.VectorOfVector
import Verif.Model.MapArray
import Verif.Model.Coo
/-! `Agrees` for the functions of further container models, in the order of the model files. -/
namespace Ublas
open Search
variable {α σ R κ : Type}


/-! ## CArray -/

theorem CVect.get_agrees (v : CVect R) (i : Nat) :
    Agrees (CVect.get true v i) (CVect.get false v i) := by
  unfold CVect.get; agree
instance CVect.get_agreesI (v : CVect R) (i : Nat) :
    AgreesI (CVect.get true v i) (CVect.get false v i) := ⟨CVect.get_agrees v i⟩
theorem CVect.set_agrees (v : CVect R) (i : Nat) (t : R) :
    Agrees (CVect.set true v i t) (CVect.set false v i t) := by
  unfold CVect.set; agree
instance CVect.set_agreesI (v : CVect R) (i : Nat) (t : R) :
    AgreesI (CVect.set true v i t) (CVect.set false v i t) := ⟨CVect.set_agrees v i t⟩
theorem CVect.swap_agrees (a v : CVect R) :
    Agrees (CVect.swap true a v) (CVect.swap false a v) := by
  unfold CVect.swap; agree
instance CVect.swap_agreesI (a v : CVect R) :
    AgreesI (CVect.swap true a v) (CVect.swap false a v) := ⟨CVect.swap_agrees a v⟩
theorem CMatx.get_agrees (C : Nat) (m : CMatx R) (i j : Nat) :
    Agrees (CMatx.get true C m i j) (CMatx.get false C m i j) := by
  unfold CMatx.get; agree
instance CMatx.get_agreesI (C : Nat) (m : CMatx R) (i j : Nat) :
    AgreesI (CMatx.get true C m i j) (CMatx.get false C m i j) := ⟨CMatx.get_agrees C m i j⟩
theorem CMatx.set_agrees (C : Nat) (m : CMatx R) (i j : Nat) (t : R) :
    Agrees (CMatx.set true C m i j t) (CMatx.set false C m i j t) := by
  unfold CMatx.set; agree
instance CMatx.set_agreesI (C : Nat) (m : CMatx R) (i j : Nat) (t : R) :
    AgreesI (CMatx.set true C m i j t) (CMatx.set false C m i j t) := ⟨CMatx.set_agrees C m i j t⟩
theorem CMatx.swap_agrees (C : Nat) (a m : CMatx R) :
    Agrees (CMatx.swap true C a m) (CMatx.swap false C a m) := by
  unfold CMatx.swap; agree
instance CMatx.swap_agreesI (C : Nat) (a m : CMatx R) :
    AgreesI (CMatx.swap true C a m) (CMatx.swap false C a m) := ⟨CMatx.swap_agrees C a m⟩
theorem CMatx.resize_agrees (N C : Nat) (junk : Nat → R) (m : CMatx R) (r c : Nat) (preserve : Bool) :
    Agrees (CMatx.resize true N C junk m r c preserve) (CMatx.resize false N C junk m r c preserve) := by
  unfold CMatx.resize; agree
instance CMatx.resize_agreesI (N C : Nat) (junk : Nat → R) (m : CMatx R) (r c : Nat) (preserve : Bool) :
    AgreesI (CMatx.resize true N C junk m r c preserve) (CMatx.resize false N C junk m r c preserve) := ⟨CMatx.resize_agrees N C junk m r c preserve⟩

/-! ## DenseVV -/

theorem VV.get_agrees (o : Orient) (m : VV R) (i j : Nat) :
    Agrees (VV.get true o m i j) (VV.get false o m i j) := by
  unfold VV.get; agree
instance VV.get_agreesI (o : Orient) (m : VV R) (i j : Nat) :
    AgreesI (VV.get true o m i j) (VV.get false o m i j) := ⟨VV.get_agrees o m i j⟩
theorem VV.set_agrees (o : Orient) (m : VV R) (i j : Nat) (t : R) :
    Agrees (VV.set true o m i j t) (VV.set false o m i j t) := by
  unfold VV.set; agree
instance VV.set_agreesI (o : Orient) (m : VV R) (i j : Nat) (t : R) :
    AgreesI (VV.set true o m i j t) (VV.set false o m i j t) := ⟨VV.set_agrees o m i j t⟩
theorem VV.erase_agrees [Zero R] (o : Orient) (m : VV R) (i j : Nat) :
    Agrees (VV.erase true o m i j) (VV.erase false o m i j) := by
  unfold VV.erase; agree
instance VV.erase_agreesI [Zero R] (o : Orient) (m : VV R) (i j : Nat) :
    AgreesI (VV.erase true o m i j) (VV.erase false o m i j) := ⟨VV.erase_agrees o m i j⟩

/-! ## SymAdaptor -/

theorem SymAd.base_agrees (n : Nat) (a : Nat → Nat → R) (i j : Int) :
    Agrees (SymAd.base true n a i j) (SymAd.base false n a i j) := by
  unfold SymAd.base; agree
instance SymAd.base_agreesI (n : Nat) (a : Nat → Nat → R) (i j : Int) :
    AgreesI (SymAd.base true n a i j) (SymAd.base false n a i j) := ⟨SymAd.base_agrees n a i j⟩
theorem SymAd.read_agrees (upper : Bool) (cj : R → R) (n : Nat) (a : Nat → Nat → R) (i j : Nat) :
    Agrees (SymAd.read true upper cj n a i j) (SymAd.read false upper cj n a i j) := by
  unfold SymAd.read; agree
instance SymAd.read_agreesI (upper : Bool) (cj : R → R) (n : Nat) (a : Nat → Nat → R) (i j : Nat) :
    AgreesI (SymAd.read true upper cj n a i j) (SymAd.read false upper cj n a i j) := ⟨SymAd.read_agrees upper cj n a i j⟩
theorem SymAd.store_agrees (n : Nat) (a : Nat → Nat → R) (i j : Nat) (x : R) :
    Agrees (SymAd.store true n a i j x) (SymAd.store false n a i j x) := by
  unfold SymAd.store; agree
instance SymAd.store_agreesI (n : Nat) (a : Nat → Nat → R) (i j : Nat) (x : R) :
    AgreesI (SymAd.store true n a i j x) (SymAd.store false n a i j x) := ⟨SymAd.store_agrees n a i j x⟩
theorem SymAd.writeSym_agrees (upper : Bool) (n : Nat) (a : Nat → Nat → R) (i j : Nat) (x : R) :
    Agrees (SymAd.writeSym true upper n a i j x) (SymAd.writeSym false upper n a i j x) := by
  unfold SymAd.writeSym; agree
instance SymAd.writeSym_agreesI (upper : Bool) (n : Nat) (a : Nat → Nat → R) (i j : Nat) (x : R) :
    AgreesI (SymAd.writeSym true upper n a i j x) (SymAd.writeSym false upper n a i j x) := ⟨SymAd.writeSym_agrees upper n a i j x⟩
theorem SymAd.insertHerm_agrees (upper : Bool) (cj : R → R) (n : Nat) (a : Nat → Nat → R) (i j : Nat) (x : R) :
    Agrees (SymAd.insertHerm true upper cj n a i j x) (SymAd.insertHerm false upper cj n a i j x) := by
  unfold SymAd.insertHerm; agree
instance SymAd.insertHerm_agreesI (upper : Bool) (cj : R → R) (n : Nat) (a : Nat → Nat → R) (i j : Nat) (x : R) :
    AgreesI (SymAd.insertHerm true upper cj n a i j x) (SymAd.insertHerm false upper cj n a i j x) := ⟨SymAd.insertHerm_agrees upper cj n a i j x⟩
theorem SymAd.writeHermLoose_agrees (upper : Bool) (n : Nat) (a : Nat → Nat → R) (i j : Nat) (x : R) :
    Agrees (SymAd.writeHermLoose true upper n a i j x) (SymAd.writeHermLoose false upper n a i j x) := by
  unfold SymAd.writeHermLoose; agree
instance SymAd.writeHermLoose_agreesI (upper : Bool) (n : Nat) (a : Nat → Nat → R) (i j : Nat) (x : R) :
    AgreesI (SymAd.writeHermLoose true upper n a i j x) (SymAd.writeHermLoose false upper n a i j x) := ⟨SymAd.writeHermLoose_agrees upper n a i j x⟩

/-! ## PackedAdaptor -/

theorem Adapt.base_agrees (r c : Nat) (a : Nat → Nat → R) (i j : Nat) :
    Agrees (Adapt.base true r c a i j) (Adapt.base false r c a i j) := by
  unfold Adapt.base; agree
instance Adapt.base_agreesI (r c : Nat) (a : Nat → Nat → R) (i j : Nat) :
    AgreesI (Adapt.base true r c a i j) (Adapt.base false r c a i j) := ⟨Adapt.base_agrees r c a i j⟩
theorem Adapt.store_agrees (r c : Nat) (a : Nat → Nat → R) (i j : Nat) (x : R) :
    Agrees (Adapt.store true r c a i j x) (Adapt.store false r c a i j x) := by
  unfold Adapt.store; agree
instance Adapt.store_agreesI (r c : Nat) (a : Nat → Nat → R) (i j : Nat) (x : R) :
    AgreesI (Adapt.store true r c a i j x) (Adapt.store false r c a i j x) := ⟨Adapt.store_agrees r c a i j x⟩
theorem Adapt.findB_agrees (r c i j : Nat) :
    Agrees (Adapt.findB true r c i j) (Adapt.findB false r c i j) := by
  unfold Adapt.findB; agree
instance Adapt.findB_agreesI (r c i j : Nat) :
    AgreesI (Adapt.findB true r c i j) (Adapt.findB false r c i j) := ⟨Adapt.findB_agrees r c i j⟩
theorem Adapt.tget_agrees [Zero R] [One R] (t : Tri) (r c : Nat) (a : Nat → Nat → R) (i j : Nat) :
    Agrees (Adapt.tget true t r c a i j) (Adapt.tget false t r c a i j) := by
  unfold Adapt.tget; agree
instance Adapt.tget_agreesI [Zero R] [One R] (t : Tri) (r c : Nat) (a : Nat → Nat → R) (i j : Nat) :
    AgreesI (Adapt.tget true t r c a i j) (Adapt.tget false t r c a i j) := ⟨Adapt.tget_agrees t r c a i j⟩
theorem Adapt.tset_agrees (t : Tri) (r c : Nat) (a : Nat → Nat → R) (i j : Nat) (x : R) :
    Agrees (Adapt.tset true t r c a i j x) (Adapt.tset false t r c a i j x) := by
  unfold Adapt.tset; agree
instance Adapt.tset_agreesI (t : Tri) (r c : Nat) (a : Nat → Nat → R) (i j : Nat) (x : R) :
    AgreesI (Adapt.tset true t r c a i j x) (Adapt.tset false t r c a i j x) := ⟨Adapt.tset_agrees t r c a i j x⟩
theorem Adapt.bget_agrees [Zero R] (lower upper r c : Nat) (a : Nat → Nat → R) (i j : Nat) :
    Agrees (Adapt.bget true lower upper r c a i j) (Adapt.bget false lower upper r c a i j) := by
  unfold Adapt.bget; agree
instance Adapt.bget_agreesI [Zero R] (lower upper r c : Nat) (a : Nat → Nat → R) (i j : Nat) :
    AgreesI (Adapt.bget true lower upper r c a i j) (Adapt.bget false lower upper r c a i j) := ⟨Adapt.bget_agrees lower upper r c a i j⟩
theorem Adapt.bset_agrees (lower upper r c : Nat) (a : Nat → Nat → R) (i j : Nat) (x : R) :
    Agrees (Adapt.bset true lower upper r c a i j x) (Adapt.bset false lower upper r c a i j x) := by
  unfold Adapt.bset; agree
instance Adapt.bset_agreesI (lower upper r c : Nat) (a : Nat → Nat → R) (i j : Nat) (x : R) :
    AgreesI (Adapt.bset true lower upper r c a i j x) (Adapt.bset false lower upper r c a i j x) := ⟨Adapt.bset_agrees lower upper r c a i j x⟩

/-! ## VectorOfVector -/

theorem VoV.freshRow_agrees (IB : Nat) (zero : α) (junk : Junk α) (sizem : Nat) (d : List (CVec α)) (k : Nat) :
    Agrees (VoV.freshRow true IB zero junk sizem d k) (VoV.freshRow false IB zero junk sizem d k) := by
  unfold VoV.freshRow; agree
instance VoV.freshRow_agreesI (IB : Nat) (zero : α) (junk : Junk α) (sizem : Nat) (d : List (CVec α)) (k : Nat) :
    AgreesI (VoV.freshRow true IB zero junk sizem d k) (VoV.freshRow false IB zero junk sizem d k) := ⟨VoV.freshRow_agrees IB zero junk sizem d k⟩
theorem VoV.invariants_agrees (o : Orient) (v : VoV α) :
    Agrees (VoV.invariants true o v) (VoV.invariants false o v) := by
  unfold VoV.invariants; agree
instance VoV.invariants_agreesI (o : Orient) (v : VoV α) :
    AgreesI (VoV.invariants true o v) (VoV.invariants false o v) := ⟨VoV.invariants_agrees o v⟩
theorem VoV.ctor_agrees (o : Orient) (IB : Nat) (zero : α) (junk : Junk α) (rows : Nat → CVec α) (r c : Nat) :
    Agrees (VoV.ctor true o IB zero junk rows r c) (VoV.ctor false o IB zero junk rows r c) := by
  unfold VoV.ctor; agree
instance VoV.ctor_agreesI (o : Orient) (IB : Nat) (zero : α) (junk : Junk α) (rows : Nat → CVec α) (r c : Nat) :
    AgreesI (VoV.ctor true o IB zero junk rows r c) (VoV.ctor false o IB zero junk rows r c) := ⟨VoV.ctor_agrees o IB zero junk rows r c⟩
theorem VoV.onRow_agrees (d : List (CVec α)) (k : Nat) (f g : CVec α → M (CVec α)) (h : ∀ r, Agrees (f r) (g r)) :
    Agrees (VoV.onRow true d k f) (VoV.onRow false d k g) := by
  unfold VoV.onRow; agree
macro_rules | `(tactic| agree1) => `(tactic| (with_reducible refine VoV.onRow_agrees _ _ _ _ (fun _ => ?_)))

theorem VoV.resize_agrees (o : Orient) (IB : Nat) (zero : α) (junk : Junk α) (rows : Nat → CVec α) (v : VoV α) (size1 size2 : Nat) (preserve : Bool) :
    Agrees (VoV.resize true o IB zero junk rows v size1 size2 preserve) (VoV.resize false o IB zero junk rows v size1 size2 preserve) := by
  unfold VoV.resize; agree
instance VoV.resize_agreesI (o : Orient) (IB : Nat) (zero : α) (junk : Junk α) (rows : Nat → CVec α) (v : VoV α) (size1 size2 : Nat) (preserve : Bool) :
    AgreesI (VoV.resize true o IB zero junk rows v size1 size2 preserve) (VoV.resize false o IB zero junk rows v size1 size2 preserve) := ⟨VoV.resize_agrees o IB zero junk rows v size1 size2 preserve⟩
theorem VoV.findElement_agrees (o : Orient) (IB : Nat) (v : VoV α) (i j : Nat) :
    Agrees (VoV.findElement true o IB v i j) (VoV.findElement false o IB v i j) := by
  unfold VoV.findElement; agree
instance VoV.findElement_agreesI (o : Orient) (IB : Nat) (v : VoV α) (i j : Nat) :
    AgreesI (VoV.findElement true o IB v i j) (VoV.findElement false o IB v i j) := ⟨VoV.findElement_agrees o IB v i j⟩
theorem VoV.get_agrees (o : Orient) (IB : Nat) (zero : α) (v : VoV α) (i j : Nat) :
    Agrees (VoV.get true o IB zero v i j) (VoV.get false o IB zero v i j) := by
  unfold VoV.get; agree
instance VoV.get_agreesI (o : Orient) (IB : Nat) (zero : α) (v : VoV α) (i j : Nat) :
    AgreesI (VoV.get true o IB zero v i j) (VoV.get false o IB zero v i j) := ⟨VoV.get_agrees o IB zero v i j⟩
theorem VoV.modify_agrees (o : Orient) (IB : Nat) (zero : α) (junk : Junk α) (v : VoV α) (i j : Nat) (f : α → α) :
    Agrees (VoV.modify true o IB zero junk v i j f) (VoV.modify false o IB zero junk v i j f) := by
  unfold VoV.modify; agree
instance VoV.modify_agreesI (o : Orient) (IB : Nat) (zero : α) (junk : Junk α) (v : VoV α) (i j : Nat) (f : α → α) :
    AgreesI (VoV.modify true o IB zero junk v i j f) (VoV.modify false o IB zero junk v i j f) := ⟨VoV.modify_agrees o IB zero junk v i j f⟩
theorem VoV.insertElement_agrees (o : Orient) (IB : Nat) (zero : α) (junk : Junk α) (v : VoV α) (i j : Nat) (t : α) :
    Agrees (VoV.insertElement true o IB zero junk v i j t) (VoV.insertElement false o IB zero junk v i j t) := by
  unfold VoV.insertElement; agree
instance VoV.insertElement_agreesI (o : Orient) (IB : Nat) (zero : α) (junk : Junk α) (v : VoV α) (i j : Nat) (t : α) :
    AgreesI (VoV.insertElement true o IB zero junk v i j t) (VoV.insertElement false o IB zero junk v i j t) := ⟨VoV.insertElement_agrees o IB zero junk v i j t⟩
theorem VoV.eraseElement_agrees (o : Orient) (IB : Nat) (v : VoV α) (i j : Nat) :
    Agrees (VoV.eraseElement true o IB v i j) (VoV.eraseElement false o IB v i j) := by
  unfold VoV.eraseElement; agree
instance VoV.eraseElement_agreesI (o : Orient) (IB : Nat) (v : VoV α) (i j : Nat) :
    AgreesI (VoV.eraseElement true o IB v i j) (VoV.eraseElement false o IB v i j) := ⟨VoV.eraseElement_agrees o IB v i j⟩
theorem VoV.clear_agrees (o : Orient) (IB : Nat) (v : VoV α) :
    Agrees (VoV.clear true o IB v) (VoV.clear false o IB v) := by
  unfold VoV.clear; agree
instance VoV.clear_agreesI (o : Orient) (IB : Nat) (v : VoV α) :
    AgreesI (VoV.clear true o IB v) (VoV.clear false o IB v) := ⟨VoV.clear_agrees o IB v⟩
theorem VoV.step_agrees (o : Orient) (IB : Nat) (zero : α) (junk : Junk α) (rows : Nat → CVec α) (v : VoV α) (x1 : VVOp α) :
    Agrees (VoV.step true o IB zero junk rows v x1) (VoV.step false o IB zero junk rows v x1) := by
  unfold VoV.step; agree
instance VoV.step_agreesI (o : Orient) (IB : Nat) (zero : α) (junk : Junk α) (rows : Nat → CVec α) (v : VoV α) (x1 : VVOp α) :
    AgreesI (VoV.step true o IB zero junk rows v x1) (VoV.step false o IB zero junk rows v x1) := ⟨VoV.step_agrees o IB zero junk rows v x1⟩
theorem VoV.run_agrees (o : Orient) (IB : Nat) (zero : α) (x1 : VoV α) (x2 : List (VVOp α × Junk α × (Nat → CVec α))) :
    Agrees (VoV.run true o IB zero x1 x2) (VoV.run false o IB zero x1 x2) := by
  induction x2 generalizing x1 <;> (unfold VoV.run; agree)
instance VoV.run_agreesI (o : Orient) (IB : Nat) (zero : α) (x1 : VoV α) (x2 : List (VVOp α × Junk α × (Nat → CVec α))) :
    AgreesI (VoV.run true o IB zero x1 x2) (VoV.run false o IB zero x1 x2) := ⟨VoV.run_agrees o IB zero x1 x2⟩

/-! ## MapArray -/

theorem MapArr.resize_agrees (zero : α) (m : MapArr α) (n : Nat) :
    Agrees (MapArr.resize true zero m n) (MapArr.resize false zero m n) := by
  unfold MapArr.resize; agree
instance MapArr.resize_agreesI (zero : α) (m : MapArr α) (n : Nat) :
    AgreesI (MapArr.resize true zero m n) (MapArr.resize false zero m n) := ⟨MapArr.resize_agrees zero m n⟩
theorem MapArr.reserve_agrees (zero : α) (m : MapArr α) (n : Nat) :
    Agrees (MapArr.reserve true zero m n) (MapArr.reserve false zero m n) := by
  unfold MapArr.reserve; agree
instance MapArr.reserve_agreesI (zero : α) (m : MapArr α) (n : Nat) :
    AgreesI (MapArr.reserve true zero m n) (MapArr.reserve false zero m n) := ⟨MapArr.reserve_agrees zero m n⟩
theorem MapArr.insert_agrees (zero : α) (m : MapArr α) (k : Nat) (v : α) :
    Agrees (MapArr.insert true zero m k v) (MapArr.insert false zero m k v) := by
  unfold MapArr.insert; agree
instance MapArr.insert_agreesI (zero : α) (m : MapArr α) (k : Nat) (v : α) :
    AgreesI (MapArr.insert true zero m k v) (MapArr.insert false zero m k v) := ⟨MapArr.insert_agrees zero m k v⟩
theorem MapArr.index_agrees (zero : α) (m : MapArr α) (k : Nat) :
    Agrees (MapArr.index true zero m k) (MapArr.index false zero m k) := by
  unfold MapArr.index; agree
instance MapArr.index_agreesI (zero : α) (m : MapArr α) (k : Nat) :
    AgreesI (MapArr.index true zero m k) (MapArr.index false zero m k) := ⟨MapArr.index_agrees zero m k⟩
theorem MapArr.erase_agrees (zero : α) (m : MapArr α) (it : Nat) :
    Agrees (MapArr.erase true zero m it) (MapArr.erase false zero m it) := by
  unfold MapArr.erase; agree
instance MapArr.erase_agreesI (zero : α) (m : MapArr α) (it : Nat) :
    AgreesI (MapArr.erase true zero m it) (MapArr.erase false zero m it) := ⟨MapArr.erase_agrees zero m it⟩
theorem MapArr.eraseRange_agrees (zero : α) (m : MapArr α) (it1 it2 : Nat) :
    Agrees (MapArr.eraseRange true zero m it1 it2) (MapArr.eraseRange false zero m it1 it2) := by
  unfold MapArr.eraseRange; agree
instance MapArr.eraseRange_agreesI (zero : α) (m : MapArr α) (it1 it2 : Nat) :
    AgreesI (MapArr.eraseRange true zero m it1 it2) (MapArr.eraseRange false zero m it1 it2) := ⟨MapArr.eraseRange_agrees zero m it1 it2⟩
theorem MapArr.pushBack_agrees (zero : α) (m : MapArr α) (k : Nat) (v : α) :
    Agrees (MapArr.pushBack true zero m k v) (MapArr.pushBack false zero m k v) := by
  unfold MapArr.pushBack; agree
instance MapArr.pushBack_agreesI (zero : α) (m : MapArr α) (k : Nat) (v : α) :
    AgreesI (MapArr.pushBack true zero m k v) (MapArr.pushBack false zero m k v) := ⟨MapArr.pushBack_agrees zero m k v⟩
theorem MapArr.clear_agrees (zero : α) (m : MapArr α) :
    Agrees (MapArr.clear true zero m) (MapArr.clear false zero m) := by
  unfold MapArr.clear; agree
instance MapArr.clear_agreesI (zero : α) (m : MapArr α) :
    AgreesI (MapArr.clear true zero m) (MapArr.clear false zero m) := ⟨MapArr.clear_agrees zero m⟩
theorem MapArr.assignFrom_agrees (zero : α) (m a : MapArr α) :
    Agrees (MapArr.assignFrom true zero m a) (MapArr.assignFrom false zero m a) := by
  unfold MapArr.assignFrom; agree
instance MapArr.assignFrom_agreesI (zero : α) (m a : MapArr α) :
    AgreesI (MapArr.assignFrom true zero m a) (MapArr.assignFrom false zero m a) := ⟨MapArr.assignFrom_agrees zero m a⟩
theorem MapArr.step_agrees (zero : α) (m : MapArr α) (x1 : Op α) :
    Agrees (MapArr.step true zero m x1) (MapArr.step false zero m x1) := by
  unfold MapArr.step; agree
instance MapArr.step_agreesI (zero : α) (m : MapArr α) (x1 : Op α) :
    AgreesI (MapArr.step true zero m x1) (MapArr.step false zero m x1) := ⟨MapArr.step_agrees zero m x1⟩
theorem MapArr.run_agrees (zero : α) (x1 : MapArr α) (x2 : List (Op α)) :
    Agrees (MapArr.run true zero x1 x2) (MapArr.run false zero x1 x2) := by
  induction x2 generalizing x1 <;> (unfold MapArr.run; agree)
instance MapArr.run_agreesI (zero : α) (x1 : MapArr α) (x2 : List (Op α)) :
    AgreesI (MapArr.run true zero x1 x2) (MapArr.run false zero x1 x2) := ⟨MapArr.run_agrees zero x1 x2⟩

/-! ## Coo -/

theorem Coo.invariants_agrees [DecidableEq κ] (P : CooPar κ α) (v : Coo κ α) :
    Agrees (Coo.invariants true P v) (Coo.invariants false P v) := by
  unfold Coo.invariants; agree
instance Coo.invariants_agreesI [DecidableEq κ] (P : CooPar κ α) (v : Coo κ α) :
    AgreesI (Coo.invariants true P v) (Coo.invariants false P v) := ⟨Coo.invariants_agrees P v⟩
theorem Coo.ctor_agrees [DecidableEq κ] (P : CooPar κ α) (junk : Junk κ α) (nz : Nat) :
    Agrees (Coo.ctor true P junk nz) (Coo.ctor false P junk nz) := by
  unfold Coo.ctor; agree
instance Coo.ctor_agreesI [DecidableEq κ] (P : CooPar κ α) (junk : Junk κ α) (nz : Nat) :
    AgreesI (Coo.ctor true P junk nz) (Coo.ctor false P junk nz) := ⟨Coo.ctor_agrees P junk nz⟩
theorem Coo.lowerBoundAt_agrees [DecidableEq κ] (lt : κ → κ → Bool) (idx : List κ) (target : Nat) (fuel b e : Nat) :
    Agrees (Coo.lowerBoundAt true lt idx target fuel b e) (Coo.lowerBoundAt false lt idx target fuel b e) := by
  induction fuel generalizing b e <;> (unfold Coo.lowerBoundAt; agree)
instance Coo.lowerBoundAt_agreesI [DecidableEq κ] (lt : κ → κ → Bool) (idx : List κ) (target : Nat) (fuel b e : Nat) :
    AgreesI (Coo.lowerBoundAt true lt idx target fuel b e) (Coo.lowerBoundAt false lt idx target fuel b e) := ⟨Coo.lowerBoundAt_agrees lt idx target fuel b e⟩
theorem Coo.swapAt_agrees {β : Type} (l : List β) (a b : Nat) :
    Agrees (Coo.swapAt true l a b) (Coo.swapAt false l a b) := by
  unfold Coo.swapAt; agree
instance Coo.swapAt_agreesI {β : Type} (l : List β) (a b : Nat) :
    AgreesI (Coo.swapAt true l a b) (Coo.swapAt false l a b) := ⟨Coo.swapAt_agrees l a b⟩
theorem Coo.inplaceMerge_agrees [DecidableEq κ] (lt : κ → κ → Bool) (fuel : Nat) (x2 : List κ) (x3 : List α) (b m e : Nat) :
    Agrees (Coo.inplaceMerge true lt fuel x2 x3 b m e) (Coo.inplaceMerge false lt fuel x2 x3 b m e) := by
  induction fuel generalizing x2 x3 b m e <;> (unfold Coo.inplaceMerge; agree)
instance Coo.inplaceMerge_agreesI [DecidableEq κ] (lt : κ → κ → Bool) (fuel : Nat) (x2 : List κ) (x3 : List α) (b m e : Nat) :
    AgreesI (Coo.inplaceMerge true lt fuel x2 x3 b m e) (Coo.inplaceMerge false lt fuel x2 x3 b m e) := ⟨Coo.inplaceMerge_agrees lt fuel x2 x3 b m e⟩
theorem Coo.sumStep_agrees [DecidableEq κ] [Add α] (i : Nat) (s : List κ × List α × Nat) :
    Agrees (Coo.sumStep true i s) (Coo.sumStep false i s) := by
  unfold Coo.sumStep; agree
instance Coo.sumStep_agreesI [DecidableEq κ] [Add α] (i : Nat) (s : List κ × List α × Nat) :
    AgreesI (Coo.sumStep true i s) (Coo.sumStep false i s) := ⟨Coo.sumStep_agrees i s⟩
theorem Coo.sort_agrees [DecidableEq κ] [Add α] (P : CooPar κ α) (v : Coo κ α) :
    Agrees (Coo.sort true P v) (Coo.sort false P v) := by
  unfold Coo.sort; agree
instance Coo.sort_agreesI [DecidableEq κ] [Add α] (P : CooPar κ α) (v : Coo κ α) :
    AgreesI (Coo.sort true P v) (Coo.sort false P v) := ⟨Coo.sort_agrees P v⟩
theorem Coo.reserve_agrees [DecidableEq κ] [Add α] (P : CooPar κ α) (zero : α) (junk : Junk κ α) (v : Coo κ α) (nz : Nat) (preserve : Bool) :
    Agrees (Coo.reserve true P zero junk v nz preserve) (Coo.reserve false P zero junk v nz preserve) := by
  unfold Coo.reserve; agree
instance Coo.reserve_agreesI [DecidableEq κ] [Add α] (P : CooPar κ α) (zero : α) (junk : Junk κ α) (v : Coo κ α) (nz : Nat) (preserve : Bool) :
    AgreesI (Coo.reserve true P zero junk v nz preserve) (Coo.reserve false P zero junk v nz preserve) := ⟨Coo.reserve_agrees P zero junk v nz preserve⟩
theorem Coo.find_agrees [DecidableEq κ] [Add α] (P : CooPar κ α) (v : Coo κ α) (k : κ) :
    Agrees (Coo.find true P v k) (Coo.find false P v k) := by
  unfold Coo.find; agree
instance Coo.find_agreesI [DecidableEq κ] [Add α] (P : CooPar κ α) (v : Coo κ α) (k : κ) :
    AgreesI (Coo.find true P v k) (Coo.find false P v k) := ⟨Coo.find_agrees P v k⟩
theorem Coo.get_agrees [DecidableEq κ] [Add α] (P : CooPar κ α) (zero : α) (v : Coo κ α) (k : κ) :
    Agrees (Coo.get true P zero v k) (Coo.get false P zero v k) := by
  unfold Coo.get; agree
instance Coo.get_agreesI [DecidableEq κ] [Add α] (P : CooPar κ α) (zero : α) (v : Coo κ α) (k : κ) :
    AgreesI (Coo.get true P zero v k) (Coo.get false P zero v k) := ⟨Coo.get_agrees P zero v k⟩
theorem Coo.append_agrees [DecidableEq κ] [Add α] (P : CooPar κ α) (zero : α) (junk : Junk κ α) (v : Coo κ α) (k : κ) (t : α) :
    Agrees (Coo.append true P zero junk v k t) (Coo.append false P zero junk v k t) := by
  unfold Coo.append; agree
instance Coo.append_agreesI [DecidableEq κ] [Add α] (P : CooPar κ α) (zero : α) (junk : Junk κ α) (v : Coo κ α) (k : κ) (t : α) :
    AgreesI (Coo.append true P zero junk v k t) (Coo.append false P zero junk v k t) := ⟨Coo.append_agrees P zero junk v k t⟩
theorem Coo.erase_agrees [DecidableEq κ] [Add α] (P : CooPar κ α) (v : Coo κ α) (k : κ) :
    Agrees (Coo.erase true P v k) (Coo.erase false P v k) := by
  unfold Coo.erase; agree
instance Coo.erase_agreesI [DecidableEq κ] [Add α] (P : CooPar κ α) (v : Coo κ α) (k : κ) :
    AgreesI (Coo.erase true P v k) (Coo.erase false P v k) := ⟨Coo.erase_agrees P v k⟩
theorem Coo.clear_agrees [DecidableEq κ] (P : CooPar κ α) (v : Coo κ α) :
    Agrees (Coo.clear true P v) (Coo.clear false P v) := by
  unfold Coo.clear; agree
instance Coo.clear_agreesI [DecidableEq κ] (P : CooPar κ α) (v : Coo κ α) :
    AgreesI (Coo.clear true P v) (Coo.clear false P v) := ⟨Coo.clear_agrees P v⟩
theorem Coo.pushBack_agrees [DecidableEq κ] [Add α] (P : CooPar κ α) (zero : α) (junk : Junk κ α) (v : Coo κ α) (k : κ) (t : α) :
    Agrees (Coo.pushBack true P zero junk v k t) (Coo.pushBack false P zero junk v k t) := by
  unfold Coo.pushBack; agree
instance Coo.pushBack_agreesI [DecidableEq κ] [Add α] (P : CooPar κ α) (zero : α) (junk : Junk κ α) (v : Coo κ α) (k : κ) (t : α) :
    AgreesI (Coo.pushBack true P zero junk v k t) (Coo.pushBack false P zero junk v k t) := ⟨Coo.pushBack_agrees P zero junk v k t⟩
theorem Coo.popBack_agrees [DecidableEq κ] (P : CooPar κ α) (v : Coo κ α) :
    Agrees (Coo.popBack true P v) (Coo.popBack false P v) := by
  unfold Coo.popBack; agree
instance Coo.popBack_agreesI [DecidableEq κ] (P : CooPar κ α) (v : Coo κ α) :
    AgreesI (Coo.popBack true P v) (Coo.popBack false P v) := ⟨Coo.popBack_agrees P v⟩
theorem CoordVec.ctor_agrees (srt : List (Nat × α) → List (Nat × α)) (full : Bool) (IB : Nat) (junk : Coo.Junk Nat α) (n nz : Nat) :
    Agrees (CoordVec.ctor srt full true IB junk n nz) (CoordVec.ctor srt full false IB junk n nz) := by
  unfold CoordVec.ctor; agree
instance CoordVec.ctor_agreesI (srt : List (Nat × α) → List (Nat × α)) (full : Bool) (IB : Nat) (junk : Coo.Junk Nat α) (n nz : Nat) :
    AgreesI (CoordVec.ctor srt full true IB junk n nz) (CoordVec.ctor srt full false IB junk n nz) := ⟨CoordVec.ctor_agrees srt full IB junk n nz⟩
theorem CoordVec.resize_agrees [Add α] (srt : List (Nat × α) → List (Nat × α)) (full : Bool) (IB : Nat) (zero : α) (junk : Coo.Junk Nat α) (v : CoordVec α) (size : Nat) (preserve : Bool) :
    Agrees (CoordVec.resize srt full true IB zero junk v size preserve) (CoordVec.resize srt full false IB zero junk v size preserve) := by
  unfold CoordVec.resize; agree
instance CoordVec.resize_agreesI [Add α] (srt : List (Nat × α) → List (Nat × α)) (full : Bool) (IB : Nat) (zero : α) (junk : Coo.Junk Nat α) (v : CoordVec α) (size : Nat) (preserve : Bool) :
    AgreesI (CoordVec.resize srt full true IB zero junk v size preserve) (CoordVec.resize srt full false IB zero junk v size preserve) := ⟨CoordVec.resize_agrees srt full IB zero junk v size preserve⟩
theorem CoordVec.get_agrees [Add α] (srt : List (Nat × α) → List (Nat × α)) (full : Bool) (IB : Nat) (zero : α) (v : CoordVec α) (i : Nat) :
    Agrees (CoordVec.get srt full true IB zero v i) (CoordVec.get srt full false IB zero v i) := by
  unfold CoordVec.get; agree
instance CoordVec.get_agreesI [Add α] (srt : List (Nat × α) → List (Nat × α)) (full : Bool) (IB : Nat) (zero : α) (v : CoordVec α) (i : Nat) :
    AgreesI (CoordVec.get srt full true IB zero v i) (CoordVec.get srt full false IB zero v i) := ⟨CoordVec.get_agrees srt full IB zero v i⟩
theorem CoordMat.ctor_agrees (srt : List ((Nat × Nat) × α) → List ((Nat × Nat) × α)) (full : Bool) (junk : Coo.Junk (Nat × Nat) α) (r c nz : Nat) :
    Agrees (CoordMat.ctor srt full true junk r c nz) (CoordMat.ctor srt full false junk r c nz) := by
  unfold CoordMat.ctor; agree
instance CoordMat.ctor_agreesI (srt : List ((Nat × Nat) × α) → List ((Nat × Nat) × α)) (full : Bool) (junk : Coo.Junk (Nat × Nat) α) (r c nz : Nat) :
    AgreesI (CoordMat.ctor srt full true junk r c nz) (CoordMat.ctor srt full false junk r c nz) := ⟨CoordMat.ctor_agrees srt full junk r c nz⟩
theorem CoordMat.resize_agrees (srt : List ((Nat × Nat) × α) → List ((Nat × Nat) × α)) (full : Bool) (junk : Coo.Junk (Nat × Nat) α) (v : CoordMat α) (r c : Nat) (preserve : Bool) :
    Agrees (CoordMat.resize srt full true junk v r c preserve) (CoordMat.resize srt full false junk v r c preserve) := by
  unfold CoordMat.resize; agree
instance CoordMat.resize_agreesI (srt : List ((Nat × Nat) × α) → List ((Nat × Nat) × α)) (full : Bool) (junk : Coo.Junk (Nat × Nat) α) (v : CoordMat α) (r c : Nat) (preserve : Bool) :
    AgreesI (CoordMat.resize srt full true junk v r c preserve) (CoordMat.resize srt full false junk v r c preserve) := ⟨CoordMat.resize_agrees srt full junk v r c preserve⟩
theorem CoordMat.get_agrees [Add α] (srt : List ((Nat × Nat) × α) → List ((Nat × Nat) × α)) (full : Bool) (o : Orient) (IB : Nat) (zero : α) (v : CoordMat α) (p : Nat × Nat) :
    Agrees (CoordMat.get srt full true o IB zero v p) (CoordMat.get srt full false o IB zero v p) := by
  unfold CoordMat.get; agree
instance CoordMat.get_agreesI [Add α] (srt : List ((Nat × Nat) × α) → List ((Nat × Nat) × α)) (full : Bool) (o : Orient) (IB : Nat) (zero : α) (v : CoordMat α) (p : Nat × Nat) :
    AgreesI (CoordMat.get srt full true o IB zero v p) (CoordMat.get srt full false o IB zero v p) := ⟨CoordMat.get_agrees srt full o IB zero v p⟩

end Ublas
