/-!
# Specification of migration states

Independent of the tables of the model: the arcs listed in `docs/vfio-user.rst:1706-1728`. -/

namespace Verif.Mig

/-- The states a device can be in. -/
inductive MSt where
  | stop | running | stopCopy | resuming | preCopy
  deriving DecidableEq, Repr

/-- The wire value of a state, `docs/vfio-user.rst:1677-1692`. -/
def MSt.num : MSt → Nat
  | .stop => 1
  | .running => 2
  | .stopCopy => 3
  | .resuming => 4
  | .preCopy => 6

/-- The documented arcs. -/
inductive Arc : MSt → MSt → Prop
  | running_stop : Arc .running .stop
  | stopCopy_stop : Arc .stopCopy .stop
  | resuming_stop : Arc .resuming .stop
  | preCopy_running : Arc .preCopy .running
  | stop_running : Arc .stop .running
  | running_preCopy : Arc .running .preCopy
  | stop_stopCopy : Arc .stop .stopCopy
  | preCopy_stopCopy : Arc .preCopy .stopCopy
  | stop_resuming : Arc .stop .resuming

/-- `Path a p b`: `p` lists the states visited after `a`, along arcs, the last being `b`. -/
inductive Path : MSt → List MSt → MSt → Prop
  | nil (a) : Path a [] a
  | cons {a b c p} : Arc a b → Path b p c → Path a (b :: p) c

/-- The saving group, `docs/vfio-user.rst:1721`. -/
def MSt.saving : MSt → Bool
  | .preCopy => true
  | .stopCopy => true
  | _ => false

end Verif.Mig
