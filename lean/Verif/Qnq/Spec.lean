import Verif.Qnq.Model

/-! Vocabulary for the properties of the listener list. -/
namespace Verif.Qnq

/-- The registration made by thread `r` with context `c` has returned. -/
def Listening (s : St) (r c : Nat) : Prop := ∃ n, s.threads[r]? = some (.reg c (.done n))

/-- The send made by thread `t` has returned `res`. -/
def Returned (s : St) (t : Nat) (res : Res) : Prop := ∃ sent, s.threads[t]? = some (.send sent (.done res))

/-- The calls made by thread `t`, newest first. -/
def calls (s : St) (t : Nat) : List Call := s.log.filter fun e => e.t = t

/-- The nodes found by following `next` from the head. -/
inductive Reach (s : St) : Nat → Prop
  | head : Reach s 0
  | next (i j : Nat) : Reach s i → nextOf s i = some j → Reach s j

end Verif.Qnq
