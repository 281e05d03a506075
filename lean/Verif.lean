import Verif.Props.Message
import Verif.Props.Fifo
import Verif.Props.Host
import Verif.Props.Tx
import Verif.Props.TxFail
import Verif.Props.UartPio
import Verif.Props.Pio
import Verif.Props.TwosComplement
import Verif.Props.Dsp
import Verif.Props.Uart
import Verif.Props.Rx
import Verif.Props.Adc
import Verif.Props.Core1
import Verif.Props.LineFree
import Verif.Props.Crc
import Verif.Props.Standalone
import Verif.Props.Led
import Verif.Props.Core0
import Verif.Props.MainLoop
import Verif.Props.MainLoop2
import Verif.Props.MainLoop3
import Verif.Props.LoopTx
import Verif.Spec.Lines
import Verif.Props.Lines
import Verif.Props.Started
import Verif.Props.Masking
import Verif.Spec.TxLoop
import Verif.Props.TxLoop
import Verif.Props.Driver
import Verif.Props.Overrun
import Verif.Spec.Shape
import Verif.Props.Shape
import Verif.Spec.Raw
import Verif.Props.Raw
import Verif.Props.Packets
import Verif.Model.OldDetect
import Verif.Props.OldDetect
import Verif.Spec.Clock
import Verif.Props.Clock
import Verif.Spec.Timed
import Verif.Props.Timed
import Verif.Model.LoopLeds
import Verif.Spec.LoopLeds
import Verif.Props.LoopLeds
import Verif.Spec.Eye
import Verif.Props.Eye
import Verif.Spec.Modem
import Verif.Props.Modem
import Verif.Spec.Success
import Verif.Props.Success
import Verif.Spec.Decode
import Verif.Props.Decode
import Verif.Spec.Uninit
import Verif.Proofs.Uninit
import Verif.Props.Uninit
import Verif.Model.TxDev
import Verif.Model.TxFine
import Verif.Spec.TxDev
import Verif.Spec.TxFine
import Verif.Props.TxDev
import Verif.Props.Sender
import Verif.Props.TxFine
import Verif.Spec.Times
import Verif.Spec.Heard
import Verif.Proofs.WordTimes
import Verif.Proofs.RawTimes
import Verif.Props.Times
import Verif.Props.Heard
import Verif.Spec.Alone
import Verif.Proofs.AloneEv
import Verif.Proofs.AloneWords
import Verif.Proofs.AloneInv
import Verif.Proofs.AloneStep
import Verif.Proofs.AloneStages
import Verif.Props.Alone
import Verif.Props.AloneRun
import Verif.Proofs.HealFront
import Verif.Proofs.HealUart
import Verif.Proofs.HealTail
import Verif.Proofs.HealHist
import Verif.Proofs.HealRun
import Verif.Proofs.HealSystem
import Verif.Props.Heal
import Verif.Props.TxDone
import Verif.Props.HealLines
import Verif.Props.HealDemo
import Verif.Model.AdcDev
import Verif.Proofs.ConvAbs
import Verif.Proofs.AdcPipe
import Verif.Proofs.AdcDev
import Verif.Proofs.DevRefine
import Verif.Proofs.DevOrder
import Verif.Proofs.AdcTime
import Verif.Proofs.DevScene
import Verif.Props.AdcDev
import Verif.Spec.AdcDev
import Verif.Spec.Flip
import Verif.Props.Polarity
import Verif.Proofs.DevKeeps
import Verif.Proofs.DevCodes
import Verif.Proofs.DevSteady
import Verif.Props.DevHeal
import Verif.Spec.Cut
import Verif.Proofs.CutLine
import Verif.Props.BlockEnd
import Verif.Proofs.WordsLines
import Verif.Proofs.PromptLoop
import Verif.Props.HealHost
import Verif.Props.Answered
import Verif.Props.Silence
import Verif.Model.HostRace
import Verif.Spec.HostRace
import Verif.Proofs.HostRace
import Verif.Props.HostRace
import Verif.Model.LedRace
import Verif.Spec.LedRace
import Verif.Props.LedRace
import Verif.Spec.EndToEnd
import Verif.Props.EndToEnd
import Verif.Props.EndToEndRun
import Verif.Props.Asked
import Verif.Props.Joins
import Verif.Props.CrcPoly
import Verif.Props.Collide
import Verif.Props.Drain
import Verif.Props.Account
import Verif.Props.Once
import Verif.Props.RateDemo
import Verif.Props.Number
import Verif.Props.Watch
import Verif.Props.WatchDemo
import Verif.Props.Recover
import Verif.Props.RecoverDemo
import Verif.Props.Pair
import Verif.Props.PairDemo
import Verif.Props.PairHeal
import Verif.Props.PairHealDemo
import Verif.Model.Clocks
import Verif.Props.Clocks
import Verif.Props.LongRun
import Verif.Props.LongRunDemo
import Verif.Props.PairLong
import Verif.Props.PairLongDemo
import Verif.Props.Blocks
import Verif.Props.BlocksDemo
import Verif.Props.LongBoard
import Verif.Props.LongBoardDemo
import Verif.Props.HostExact
