import Verif.Bytes

/-!
# Model of the migration state machine (`lib/migration.c`)

States are the numbers of `enum vfio_user_device_mig_state` (`include/vfio-user.h:278-288`).
-/

namespace Verif.Mig
open Verif

/-- `include/vfio-user.h:279-287`. -/
def ERROR : Nat := 0
def STOP : Nat := 1
def RUNNING : Nat := 2
def STOP_COPY : Nat := 3
def RESUMING : Nat := 4
def RUNNING_P2P : Nat := 5
def PRE_COPY : Nat := 6
def PRE_COPY_P2P : Nat := 7
def NUM_STATES : Nat := 8

/-- `lib/migration.c:49-62` `transitions`: one bit mask of targets per state. -/
def transitions : List Nat :=
  [0,
   1 <<< RUNNING ||| 1 <<< STOP_COPY ||| 1 <<< RESUMING,
   1 <<< STOP ||| 1 <<< PRE_COPY,
   1 <<< STOP,
   1 <<< STOP,
   0,
   1 <<< RUNNING ||| 1 <<< STOP_COPY,
   0]

/-- `lib/migration.c:73-128` `next_state`. -/
def nextState : List (List Nat) :=
  [[0, 0, 0, 0, 0, 0, 0, 0],
   [ERROR, STOP, RUNNING, STOP_COPY, RESUMING, ERROR, RUNNING, ERROR],
   [ERROR, STOP, RUNNING, STOP, STOP, ERROR, PRE_COPY, ERROR],
   [ERROR, STOP, STOP, STOP_COPY, STOP, ERROR, ERROR, ERROR],
   [ERROR, STOP, STOP, STOP, RESUMING, ERROR, STOP, ERROR],
   [0, 0, 0, 0, 0, 0, 0, 0],
   [ERROR, RUNNING, RUNNING, STOP_COPY, RUNNING, ERROR, PRE_COPY, ERROR],
   [0, 0, 0, 0, 0, 0, 0, 0]]

/-- The table access `next_state[from][to]`; outside the table it is a fault. -/
def next (from_ to : Nat) : Res Nat :=
  match nextState[from_]? with
  | none => .fault .oob
  | some row =>
    match row[to]? with
    | none => .fault .oob
    | some s => .ok s

/-- `lib/migration.c:130-136` `vfio_migr_state_transition_is_valid`. -/
def isValid (from_ to : Nat) : Bool :=
  decide (from_ < NUM_STATES) && decide (to < NUM_STATES) && (transitions.getD from_ 0).testBit to

/-- `vfu_migr_state_t`, `include/libvfio-user.h:581-587`; what the device is told. -/
inductive Vfu where
  | stop | running | stopAndCopy | preCopy | resume
  /-- the `-1` of `lib/migration.c:199` -/
  | bad
  deriving DecidableEq, Repr

/-- `lib/migration.c:184-201` `migr_state_vfio_to_vfu`. -/
def toVfu (s : Nat) : Vfu :=
  if s = STOP then .stop
  else if s = RUNNING then .running
  else if s = STOP_COPY then .stopAndCopy
  else if s = RESUMING then .resume
  else if s = PRE_COPY then .preCopy
  else .bad

/-- `lib/migration.c:218-256` `handle_device_state` and `migr_trans_to_valid_state` with `notify`: the
new state, the result and what the device was told.  `cb` is the result of the transition callback:
`none` for 0, `some e` for -1 with that `errno`. -/
def deviceState (cb : Option Nat) (st to : Nat) : Nat × Res Unit × List Vfu :=
  if isValid st to = false then (st, .err EINVAL, [])
  else
    match cb with
    | some e => (st, .err e, [toVfu to])
    | none => (to, .ok (), [toVfu to])

/-- The loop `lib/migration.c:276-283`; `cb k` is the result of the `k`-th callback of the request. -/
def setLoop (cb : Nat → Option Nat) : Nat → Nat → Nat → Nat → Nat × Res Unit × List Vfu
  | fuel, k, st, target =>
    if st = target then (st, .ok (), [])
    else
      match fuel with
      | 0 => (st, .fault .diverge, [])
      | fuel + 1 =>
        match next st target with
        | .fault f => (st, .fault f, [])
        | .err e => (st, .err e, [])
        | .ok s =>
          if s = ERROR then (st, .err EINVAL, [])
          else
            match deviceState (cb k) st s with
            | (st', .ok (), tr) =>
              let (st'', r, tr') := setLoop cb fuel (k + 1) st' target
              (st'', r, tr ++ tr')
            | (st', r, tr) => (st', r, tr)

/-- `lib/migration.c:264-286` `migration_set_state`; 9 rounds visit more states than there are. -/
def setState (cb : Nat → Option Nat) (st target : Nat) : Nat × Res Unit × List Vfu :=
  if target > NUM_STATES then (st, .err EINVAL, []) else setLoop cb 9 0 st target

/-- `lib/libvfio-user.c:888-903` `device_reset`, the part that concerns the migration state: `cb` is the
result of the reset callback. -/
def reset (cb : Option Nat) (st : Nat) : Nat × Res Unit :=
  match cb with
  | some e => (st, .err e)
  | none => (RUNNING, .ok ())

/-- What changes the migration state: a request, a device reset, and the device reset that is part of a
connection reset (`lib/libvfio-user.c:1800-1818`, its result is ignored). -/
inductive Op where
  | set (cb : Nat → Option Nat) (target : Nat)
  | reset (cb : Option Nat)

def step (st : Nat) : Op → Nat × Res Unit × List Vfu
  | .set cb t => setState cb st t
  | .reset cb => let (s, r) := reset cb st; (s, r, [])

/-- Final state after a history. -/
def run (st : Nat) : List Op → Nat
  | [] => st
  | op :: ops => run (step st op).1 ops

end Verif.Mig
