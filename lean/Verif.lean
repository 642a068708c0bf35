import Verif.Model.Write
import Verif.Model.EntryReader
import Verif.Props.Records
import Verif.Props.ExtraFields
import Verif.Props.Dates
import Verif.Props.Metadata
import Verif.Props.Strings
import Verif.Props.Opening
import Verif.Props.Reading
import Verif.Props.Streaming
import Verif.Proofs.Reopen
import Verif.Proofs.WritePanic
import Verif.Proofs.WriteSame
import Verif.Proofs.WriteEmits
import Verif.Props.Writing
import Verif.Props.Limits
import Verif.Props.RoundTrip
import Verif.Props.Directory
import Verif.Props.Names
import Verif.Props.Comment
import Verif.Props.Ordinary
import Verif.Props.Entries
import Verif.Spec.Visits
import Verif.Proofs.Visits
import Verif.Props.Visits
import Verif.Proofs.Unicode
import Verif.Spec.Copies
import Verif.Proofs.Copies
import Verif.Samples.Copies
import Verif.Props.Copies
import Verif.Model.Chrono
import Verif.Spec.Chrono
import Verif.Props.Chrono
import Verif.Props.Robust
import Verif.Spec.Own
import Verif.Proofs.Own
import Verif.Props.Own
import Verif.Spec.Fits
import Verif.Proofs.Fits
import Verif.Props.Fits
import Verif.Props.Tiling
import Verif.Spec.Fields
import Verif.Proofs.Fields
import Verif.Samples.Fields
import Verif.Props.Fields
import Verif.Samples.Lure
import Verif.Props.Lure
import Verif.Props.Clash
import Verif.Spec.Versions
import Verif.Props.Versions
import Verif.Spec.Behind
import Verif.Proofs.Behind
import Verif.Props.Behind
import Verif.Spec.Frame
import Verif.Proofs.Frame
import Verif.Props.Frame
import Verif.Props.Cut
import Verif.Props.EarlyClose
import Verif.Props.Encrypted
import Verif.Props.Agree
import Verif.Props.Bounds
import Verif.Props.Resume
import Verif.Props.Steady
import Verif.Props.Requests
import Verif.Props.CopyAll
import Verif.Props.StreamChecked
import Verif.Props.CutStream
import Verif.Props.Damage
import Verif.Props.Ahead
import Verif.Props.StreamDamage
import Verif.Props.Adaptive
import Verif.Props.Openable
import Verif.Props.Crc
import Verif.Props.Refused
import Verif.Spec.Verdict
import Verif.Proofs.Verdict
import Verif.Props.Verdict
import Verif.Model.Extract
import Verif.Spec.Extract
import Verif.Proofs.Extract
import Verif.Props.Extract
import Verif.Spec.ExtractAll
import Verif.Proofs.ExtractAll
import Verif.Props.ExtractAll
import Verif.Spec.Independent
import Verif.Proofs.Independent
import Verif.Props.Independent
import Verif.Proofs.Accepted
import Verif.Props.Accepted
import Verif.Spec.Sequential
import Verif.Samples.Sequential
import Verif.Proofs.Sequential
import Verif.Proofs.InSequence
import Verif.Props.Sequential
import Verif.Spec.Size
import Verif.Spec.Classic
import Verif.Proofs.Size
import Verif.Proofs.Classic
import Verif.Props.Size
import Verif.Props.Classic
import Verif.Spec.Irrelevant
import Verif.Proofs.Irrelevant
import Verif.Props.Irrelevant
import Verif.Spec.Builder
import Verif.Props.Builder
import Verif.Props.Permissions
import Verif.Proofs.Interrupts
import Verif.Props.Crash
import Verif.Model.Inner
import Verif.Spec.Inner
import Verif.Proofs.Inner
import Verif.Props.Inner
import Verif.Model.Features
import Verif.Spec.Features
import Verif.Proofs.Features
import Verif.Props.Features
import Verif.Model.Narrow
import Verif.Spec.Narrow
import Verif.Proofs.Narrow
import Verif.Props.Narrow
import Verif.Spec.Precompressed
import Verif.Proofs.Precompressed
import Verif.Props.Precompressed
import Verif.Spec.Announced
import Verif.Proofs.Announced
import Verif.Props.Announced
import Verif.Model.CliCompress
import Verif.Spec.CliCompress
import Verif.Proofs.CliWalk
import Verif.Proofs.CliPack
import Verif.Proofs.CliRestore
import Verif.Samples.Trees
import Verif.Props.CliCompress
import Verif.Props.CliRestore
import Verif.Props.BehindOther
import Verif.Spec.LargeCopies
import Verif.Proofs.LargeCopies
import Verif.Props.LargeCopies
import Verif.Proofs.LargeRead
import Verif.Props.Repacked
import Verif.Spec.Generations
import Verif.Props.Generations
import Verif.Spec.Collected
import Verif.Props.Collected
import Verif.Model.Upload
import Verif.Spec.Upload
import Verif.Proofs.Upload
import Verif.Props.Upload
import Verif.Spec.Access
import Verif.Props.Access
import Verif.Spec.Handed
import Verif.Props.Handed
import Verif.Props.Checking
import Verif.Model.PathReader
import Verif.Spec.PathReader
import Verif.Props.PathReader
import Verif.Model.Exchange
import Verif.Spec.Exchange
import Verif.Props.Exchange
import Verif.Model.InnerReader
import Verif.Spec.InnerReader
import Verif.Props.InnerReader
import Verif.Model.Forcing
import Verif.Spec.Forcing
import Verif.Props.Forcing
import Verif.Spec.Commenting
import Verif.Props.Commenting
import Verif.Props.CommentRead
import Verif.Props.ForceRead
import Verif.Model.FileBuilder
import Verif.Spec.FileBuilder
import Verif.Props.FileBuilder
import Verif.Props.KeptListing
