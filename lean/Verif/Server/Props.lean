import Verif.Server.Quiesce
import Verif.Server.Answer
import Verif.Server.Gate
import Verif.Server.Fds
import Verif.Server.Crashes
import Verif.Server.Broken
import Verif.Server.Destroy
import Verif.Server.Ledger
import Verif.Server.Mapping
import Verif.Server.Inform
import Verif.Server.Migrate
import Verif.Server.Flr
import Verif.Server.Signal
import Verif.Server.Soil
import Verif.Server.Loop
import Verif.Server.Memory
import Verif.Server.Identity
import Verif.Server.Secret
import Verif.Server.Renew
import Verif.Server.Register
import Verif.Server.Features
import Verif.Server.Cause
import Verif.Server.Stream
import Verif.Server.Starve
import Verif.Server.BlocksProps
import Verif.Server.Visits
import Verif.Server.Precopy
import Verif.Server.Pipes
import Verif.Server.Guard
import Verif.Server.Poll
import Verif.Server.Inside
import Verif.Server.Length
import Verif.Server.Holds
import Verif.Server.Relabel
import Verif.Server.Exchange
import Verif.Server.Refused
import Verif.Server.Again
import Verif.Server.Cost
import Verif.Server.Process
import Verif.Server.Granted
import Verif.Server.Stopped
import Verif.Server.Device
import Verif.Server.Huge
import Verif.Server.NoFlr
import Verif.Server.Holdout

/-! # Concrete cases for the theorems of `Verif.Server.Quiesce`

The conversation is `talk`: map a region, unmap it while the device defers its quiesce, poll, end of the quiesce, bind
interrupts. -/

namespace Verif.Server
open Verif
open Verif.Dma (Fd)
open Demo

/-- The region of `mapBody 0x100000`. -/
def mapped : Dma.Info :=
  { base := 0x100000, len := 0x200000, vaddr := 0x7f0000000000, mapBase := 0x7f0000000000, mapLen := 0x200000
    pageSize := 4096, prot := { read := true, write := true } }

/-- C56, C60: the device is told of the mapping while quiesced, and `in_cb` says so. -/
example : ∃ a b, (run cfg st talk).2 = a ++ .call (.dmaRegister mapped) true :: b ∧ QuiescedAt a ∧
    inCbAt a = .dmaRegister :=
  have h : (run cfg st talk).2 = (run cfg st talk).2.take 7 ++ .call (.dmaRegister mapped) true ::
      (run cfg st talk).2.drop 8 := by decide +kernel
  ⟨_, _, h, C56_quiesced cfg rfl st rfl talk h (.inl ⟨_, rfl⟩), ((C60_bookkeeping cfg st rfl talk).1 _ _ _ _ h).1⟩

/-- C56: so is the end of the mapping, after a deferred quiesce. -/
example : ∃ a b, (run cfg st talk).2 = a ++ .call (.dmaUnregister mapped) true :: b ∧ QuiescedAt a :=
  have h : (run cfg st talk).2 = (run cfg st talk).2.take 21 ++ .call (.dmaUnregister mapped) true ::
      (run cfg st talk).2.drop 22 := by decide +kernel
  ⟨_, _, h, C56_quiesced cfg rfl st rfl talk h (.inr (.inl ⟨_, rfl⟩))⟩

/-- C55: the unmap request is deferred; nothing but the call of the quiesce callback happens, and the region stays. -/
example : ∃ m, (run cfg st (talk.take 2)).1.pending = .msg m ∧
    ((run cfg st (talk.take 2)).1.dma.map (·.regions.length)) = some 1 ∧
    Frozen (run cfg st (talk.take 2)).1 (run cfg (run cfg st (talk.take 2)).1 [.run env .again, .trigger none 0]).1 :=
  ⟨_, rfl, by decide +kernel, (C55_frozen cfg _ _ (by decide +kernel) (by decide +kernel) (by
    intro op hop
    simp only [List.mem_cons, List.not_mem_nil, or_false] at hop
    rcases hop with rfl | rfl <;> rfl)).1⟩

end Verif.Server
