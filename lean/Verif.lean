import Verif.Base
import Verif.Dma.Props1
import Verif.Dma.Props2
import Verif.Dma.Props3
import Verif.Dma.Props4
import Verif.Dma.Props5
import Verif.Dma.Props6
import Verif.Dma.Conc
import Verif.Dma.HeapProps
import Verif.Dma.Slots
import Verif.Dma.Nested
import Verif.Mig.Props
import Verif.Irq.Props
import Verif.Irq.Recount
import Verif.Region.Props
import Verif.Pci.Props
import Verif.Pci.Refusal
import Verif.Wire.Props
import Verif.Server.Props
import Verif.Setup.Examples
import Verif.Setup.Estate
import Verif.Setup.Order
import Verif.Setup.Retry
import Verif.Setup.Late
import Verif.Axioms
