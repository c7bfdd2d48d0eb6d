import Verif.Trie.Props
import Verif.Trie.ProofProps
import Verif.Trie.CodecProps
import Verif.Trie.PruneProps
import Verif.State.Props
import Verif.State.ReverseProps
import Verif.State.CasmProps
import Verif.State.ReadBackProps
import Verif.Events.Props
import Verif.Events.RpcProps
import Verif.Events.TokenText
import Verif.Crypto.FieldProps
import Verif.Crypto.FeltProps
import Verif.Crypto.PoseidonProps
import Verif.Crypto.CurveProps
import Verif.Crypto.PedersenProps
import Verif.Crypto.EcdsaProps
import Verif.Gas.L2Props
import Verif.Gas.L1Props
import Verif.Common.VersionProps
import Verif.Commit.Props
import Verif.Diff.Props
import Verif.Diff.LayerProps
import Verif.Cons.Wal
import Verif.Cons.WalSpec
import Verif.Cons.WalLemmas
import Verif.Cons.WalProps
import Verif.Cons.Node
import Verif.Cons.NodeSpec
import Verif.Cons.NodeLemmas
import Verif.Cons.NodeProps
import Verif.Cons.Stream
import Verif.Cons.StreamProps
import Verif.Cons.Parts
import Verif.Cons.PartsProps
import Verif.Cons.Proposal
import Verif.Cons.ProposalSpec
import Verif.Cons.ProposalLemmas
import Verif.Cons.ProposalProps
import Verif.Cons.ProposalSafety
import Verif.Sync.Pipeline
import Verif.Sync.PipelineProps
import Verif.Sync.Headers
import Verif.Sync.HeadersProps
import Verif.Sync.Checkpoint
import Verif.Sync.CheckpointLemmas
import Verif.Sync.CheckpointProps
import Verif.Sync.CheckpointChain
import Verif.Sync.Feed
import Verif.Sync.FeedProps
import Verif.Block.Model
import Verif.Block.Spec
import Verif.Block.Lemmas
import Verif.Block.BodyLemmas
import Verif.Block.HeaderLemmas
import Verif.Block.HeaderProps
import Verif.Block.BodyProps
import Verif.Block.TxModel
import Verif.Block.TxSpec
import Verif.Block.TxLemmas
import Verif.Block.TxProps
import Verif.Body.Model
import Verif.Body.Spec
import Verif.Body.Lemmas
import Verif.Body.Props
import Verif.Body.SyncLemmas
import Verif.Body.SyncProps
import Verif.Body.ResumeProps
import Verif.Head.Model
import Verif.Head.Spec
import Verif.Head.Lemmas
import Verif.Head.Inv
import Verif.Head.Props
import Verif.Head.SysSpec
import Verif.Head.SysLemmas
import Verif.Head.SysProps
import Verif.Head.Bulk
import Verif.Head.Notes
import Verif.Head.Feed
import Verif.Class.HashModel
import Verif.Class.HashSpec
import Verif.Class.HashLemmas
import Verif.Class.HashPrep
import Verif.Class.HashPython
import Verif.Class.HashProps
import Verif.Exec.Model
import Verif.Exec.Spec
import Verif.Exec.Lemmas
import Verif.Exec.Node
import Verif.Exec.NodeLemmas
import Verif.Exec.Props
import Verif.Exec.ClassProps
import Verif.Avail.Model
import Verif.Avail.Spec
import Verif.Avail.Lemmas
import Verif.Avail.Props
import Verif.ClassSync.Model
import Verif.ClassSync.Wire
import Verif.ClassSync.Spec
import Verif.ClassSync.Lemmas
import Verif.ClassSync.DbLemmas
import Verif.ClassSync.Props
import Verif.ClassSync.Expected
import Verif.Fee.Model
import Verif.Fee.Lemmas
import Verif.Fee.Props
import Verif.Trace.Model
import Verif.Trace.Lemmas
import Verif.Trace.Props
import Verif.Subs.Model
import Verif.Subs.Lemmas
import Verif.Subs.Spec
import Verif.Subs.Props
import Verif.Subs.Filter
import Verif.Subs.Status
import Verif.Subs.StatusLemmas
import Verif.Subs.StatusProps
import Verif.Subs.Pending
import Verif.Subs.PendingProps
import Verif.Pend.Model
import Verif.Pend.Spec
import Verif.Pend.Lemmas
import Verif.Pend.Agg
import Verif.Pend.Props
import Verif.Pend.TxProps
import Verif.Pend.Poll
import Verif.Pend.PollProps
import Verif.Commit.StorageProof
import Verif.Commit.SpecProof
import Verif.Commit.ProofLemmas
import Verif.Commit.ProofProps
import Verif.Rpc.Model
import Verif.Rpc.Spec
import Verif.Rpc.Lemmas
import Verif.Rpc.Props
import Verif.Rpc.Subs
import Verif.Rpc.SubsSpec
import Verif.Rpc.SubsLemmas
import Verif.Rpc.SubsProps
import Verif.Serve.Model
import Verif.Serve.Spec
import Verif.Serve.Lemmas
import Verif.Serve.DiffLemmas
import Verif.Serve.StreamLemmas
import Verif.Serve.Props
import Verif.Conn.Model
import Verif.Conn.Spec
import Verif.Conn.Lemmas
import Verif.Conn.Evict
import Verif.Conn.Attack
import Verif.Conn.System
import Verif.Conn.Runs
import Verif.Conn.Guards
import Verif.Conn.Room
import Verif.Conn.Props
import Verif.Submit.Model
import Verif.Submit.Spec
import Verif.Submit.Lemmas
import Verif.Submit.Uniq
import Verif.Submit.Wire
import Verif.Submit.Props
import Verif.Shown.Hex
import Verif.Shown.Model
import Verif.Shown.Spec
import Verif.Shown.HexLemmas
import Verif.Shown.Lemmas
import Verif.Shown.Receipts
import Verif.Shown.Diffs
import Verif.Shown.Props
import Verif.Open.Model
import Verif.Open.Spec
import Verif.Open.Lemmas
import Verif.Open.Steps
import Verif.Open.Props
import Verif.Reqs.Model
import Verif.Reqs.Spec
import Verif.Reqs.Lemmas
import Verif.Reqs.Base
import Verif.Reqs.CalmInv
import Verif.Reqs.PromptInv
import Verif.Reqs.Frame
import Verif.Reqs.Props
import Verif.Rate.Model
import Verif.Rate.Spec
import Verif.Rate.Lemmas
import Verif.Rate.Base
import Verif.Rate.Props
import Verif.Gate.Model
import Verif.Gate.Spec
import Verif.Gate.Url
import Verif.Gate.Lemmas
import Verif.Gate.Props
import Verif.Vals.Model
import Verif.Vals.Spec
import Verif.Vals.Lemmas
import Verif.Vals.Props
import Verif.Comp.Model
import Verif.Comp.Spec
import Verif.Comp.Lemmas
import Verif.Comp.Props
import Verif.Drive.Model
import Verif.Drive.Spec
import Verif.Drive.Lemmas
import Verif.Drive.Props
import Verif.Sim.Model
import Verif.Sim.Spec
import Verif.Sim.Lemmas
import Verif.Sim.Props
import Verif.Upgrade.Model
import Verif.Upgrade.Spec
import Verif.Upgrade.Lemmas
import Verif.Upgrade.Props
import Verif.Migrate.Model
import Verif.Migrate.Spec
import Verif.Migrate.Lemmas
import Verif.Migrate.Props
import Verif.Regroup.Model
import Verif.Regroup.Spec
import Verif.Regroup.Lemmas
import Verif.Regroup.TableLemmas
import Verif.Regroup.RunLemmas
import Verif.Regroup.Props
import Verif.Feed.Model
import Verif.Feed.Spec
import Verif.Feed.LeafLemmas
import Verif.Feed.ReadLemmas
import Verif.Feed.TxLemmas
import Verif.Feed.SentLemmas
import Verif.Feed.MainLemmas
import Verif.Feed.ReceiptLemmas
import Verif.Feed.WriteLemmas
import Verif.Feed.Props
import Verif.Cls.Model
import Verif.Cls.Spec
import Verif.Cls.Lemmas
import Verif.Cls.WriteLemmas
import Verif.Cls.EqvLemmas
import Verif.Cls.Props
import Verif.Stat.Model
import Verif.Stat.Spec
import Verif.Stat.Lemmas
import Verif.Stat.Props
import Verif.Agree.Model
import Verif.Agree.Spec
import Verif.Agree.Lemmas
import Verif.Agree.Props
import Verif.Quit.Model
import Verif.Quit.Spec
import Verif.Quit.Lemmas
import Verif.Quit.Props
import Verif.Natv.Model
import Verif.Natv.Spec
import Verif.Natv.Lemmas
import Verif.Natv.Props
import Verif.Errs.Model
import Verif.Errs.Spec
import Verif.Errs.Lemmas
import Verif.Errs.Props
import Verif.Casm.Model
import Verif.Casm.Spec
import Verif.Casm.Lemmas
import Verif.Casm.Props
import Verif.Release.Model
import Verif.Release.Spec
import Verif.Release.Lemmas
import Verif.Release.Props
import Verif.GwTrace.Model
import Verif.GwTrace.Spec
import Verif.GwTrace.Lemmas
import Verif.GwTrace.Props
import Verif.TraceOut.Model
import Verif.TraceOut.Spec
import Verif.TraceOut.Lemmas
import Verif.TraceOut.Props
import Verif.ExecReceipt.Model
import Verif.ExecReceipt.Spec
import Verif.ExecReceipt.Lemmas
import Verif.ExecReceipt.Props
import Verif.BatchExec.Model
import Verif.BatchExec.Spec
import Verif.BatchExec.Lemmas
import Verif.BatchExec.Props
