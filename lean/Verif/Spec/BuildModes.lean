import Verif.Basic
/-! Specification used by C108: a call compiled in a debug build and the same call compiled in a release build. -/
namespace Ublas
variable {β : Type _}

/-- Whenever the debug build returns normally, the release build returns normally with the same result. -/
def Agrees (debug release : M β) : Prop := ∀ r, debug = .ok r → release = .ok r

end Ublas
