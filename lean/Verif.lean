import Verif.Audit
import Verif.Lemmas.Agent
import Verif.Lemmas.AgentMore
import Verif.Lemmas.Aio
import Verif.Lemmas.Answers
import Verif.Lemmas.Array
import Verif.Lemmas.Array2
import Verif.Lemmas.ArrayLive
import Verif.Lemmas.ArraySeq
import Verif.Lemmas.Ask
import Verif.Lemmas.AsyncSeq
import Verif.Lemmas.AsyncSeq2
import Verif.Lemmas.AsyncShared
import Verif.Lemmas.AsyncStack
import Verif.Lemmas.AsyncStop
import Verif.Lemmas.Block
import Verif.Lemmas.BlockCost
import Verif.Lemmas.BlockKind
import Verif.Lemmas.Builder
import Verif.Lemmas.Builder2
import Verif.Lemmas.CallStack
import Verif.Lemmas.CancelInterrupt
import Verif.Lemmas.CancelInterruptWin
import Verif.Lemmas.Cancellation
import Verif.Lemmas.CancellationMore
import Verif.Lemmas.CancellationOrder
import Verif.Lemmas.CancellationRace
import Verif.Lemmas.Composite
import Verif.Lemmas.Const
import Verif.Lemmas.Disposable
import Verif.Lemmas.FromIterable
import Verif.Lemmas.Functions
import Verif.Lemmas.Grammar
import Verif.Lemmas.GrammarCost
import Verif.Lemmas.GrammarEnds
import Verif.Lemmas.GrammarLinear
import Verif.Lemmas.GrammarStack
import Verif.Lemmas.Interleave
import Verif.Lemmas.Interrupt
import Verif.Lemmas.Linked
import Verif.Lemmas.LinkedBound
import Verif.Lemmas.LinkedChain
import Verif.Lemmas.LinkedNest
import Verif.Lemmas.LinkedOff
import Verif.Lemmas.Mailbox
import Verif.Lemmas.MailboxCancel
import Verif.Lemmas.MailboxFuture
import Verif.Lemmas.MailboxInterrupt
import Verif.Lemmas.MailboxLoop
import Verif.Lemmas.MailboxRace
import Verif.Lemmas.MapApi
import Verif.Lemmas.MapBalance
import Verif.Lemmas.MapBalance2
import Verif.Lemmas.MapHeap
import Verif.Lemmas.MapHeap2
import Verif.Lemmas.MapHistory
import Verif.Lemmas.MapHost
import Verif.Lemmas.MapHost2
import Verif.Lemmas.MapHostCost
import Verif.Lemmas.MapHostKeep
import Verif.Lemmas.MapHostPure
import Verif.Lemmas.MapHostStack
import Verif.Lemmas.MapLinear
import Verif.Lemmas.MapSource
import Verif.Lemmas.MapStack
import Verif.Lemmas.MapTraverse
import Verif.Lemmas.MapTree
import Verif.Lemmas.MapView
import Verif.Lemmas.Match
import Verif.Lemmas.Modules
import Verif.Lemmas.Network
import Verif.Lemmas.NetworkMore
import Verif.Lemmas.NetworkTask
import Verif.Lemmas.OptId
import Verif.Lemmas.Parser
import Verif.Lemmas.Parser2
import Verif.Lemmas.Parser3
import Verif.Lemmas.Parser4
import Verif.Lemmas.ParserError
import Verif.Lemmas.ParserMono
import Verif.Lemmas.ParserStack
import Verif.Lemmas.ParserText
import Verif.Lemmas.PyD
import Verif.Lemmas.Seq
import Verif.Lemmas.Seq2
import Verif.Lemmas.Seq3
import Verif.Lemmas.SeqClose
import Verif.Lemmas.SeqCloseSim
import Verif.Lemmas.SeqConsume
import Verif.Lemmas.SeqStack
import Verif.Lemmas.SeqStack2
import Verif.Lemmas.Serialize
import Verif.Lemmas.Slice
import Verif.Lemmas.SliceAssign
import Verif.Lemmas.SortedAssoc
import Verif.Lemmas.StopIter
import Verif.Lemmas.Text
import Verif.Lemmas.Threads
import Verif.Lemmas.TraverseAny
import Verif.Lemmas.TryBody
import Verif.Lemmas.Union
import Verif.Lemmas.UnionClass
import Verif.Lemmas.Worker
import Verif.Lemmas.WorkerCalm
import Verif.Lemmas.WorkerMore
import Verif.Model.Agent
import Verif.Model.Aio
import Verif.Model.Array
import Verif.Model.ArrayLive
import Verif.Model.ArraySeq
import Verif.Model.AsyncSeq
import Verif.Model.AsyncShared
import Verif.Model.AsyncStack
import Verif.Model.AsyncStop
import Verif.Model.Block
import Verif.Model.BlockCost
import Verif.Model.Builder
import Verif.Model.Builtins
import Verif.Model.CallStack
import Verif.Model.CancelInterrupt
import Verif.Model.Cancellation
import Verif.Model.Composite
import Verif.Model.Disposable
import Verif.Model.Extra
import Verif.Model.FromIterable
import Verif.Model.Functions
import Verif.Model.Grammar
import Verif.Model.GrammarCost
import Verif.Model.Interrupt
import Verif.Model.Linked
import Verif.Model.Mailbox
import Verif.Model.MailboxInterrupt
import Verif.Model.Map
import Verif.Model.MapHeap
import Verif.Model.MapHost
import Verif.Model.MapSource
import Verif.Model.MapTree
import Verif.Model.MapView
import Verif.Model.Match
import Verif.Model.Modules
import Verif.Model.Network
import Verif.Model.OptId
import Verif.Model.Option
import Verif.Model.Parser
import Verif.Model.ParserStack
import Verif.Model.ParserText
import Verif.Model.Py
import Verif.Model.PyD
import Verif.Model.Seq
import Verif.Model.SeqClose
import Verif.Model.SeqConsume
import Verif.Model.SeqMethods
import Verif.Model.SeqPipe
import Verif.Model.SeqStack
import Verif.Model.Serialize
import Verif.Model.Slice
import Verif.Model.StopIter
import Verif.Model.TaggedUnion
import Verif.Model.Text
import Verif.Model.Threads
import Verif.Model.TraverseAny
import Verif.Model.TryBody
import Verif.Model.Typing
import Verif.Model.UnionClass
import Verif.Model.UnionOrder
import Verif.Model.With
import Verif.Model.Worker
import Verif.Props.Agent
import Verif.Props.Aio
import Verif.Props.Answers
import Verif.Props.Array
import Verif.Props.Array2
import Verif.Props.ArrayLive
import Verif.Props.ArraySeq
import Verif.Props.AsyncSeq
import Verif.Props.AsyncShared
import Verif.Props.AsyncStack
import Verif.Props.AsyncStop
import Verif.Props.Block
import Verif.Props.Block2
import Verif.Props.BlockCost
import Verif.Props.BlockKind
import Verif.Props.Builder
import Verif.Props.Builder2
import Verif.Props.CallStack
import Verif.Props.CancelInterrupt
import Verif.Props.Cancellation
import Verif.Props.Composite
import Verif.Props.Disposable
import Verif.Props.Extra
import Verif.Props.FromIterable
import Verif.Props.Functions
import Verif.Props.Grammar
import Verif.Props.GrammarCost
import Verif.Props.Interleave
import Verif.Props.Interrupt
import Verif.Props.Linked
import Verif.Props.Mailbox
import Verif.Props.MailboxInterrupt
import Verif.Props.Map
import Verif.Props.MapCost
import Verif.Props.MapHeap
import Verif.Props.MapHost
import Verif.Props.MapSource
import Verif.Props.MapStack
import Verif.Props.MapView
import Verif.Props.Match
import Verif.Props.MatchCollections
import Verif.Props.Modules
import Verif.Props.Network
import Verif.Props.OptId
import Verif.Props.OptionResult
import Verif.Props.Parser
import Verif.Props.ParserError
import Verif.Props.ParserFrames
import Verif.Props.ParserStack
import Verif.Props.ParserText
import Verif.Props.Rejects
import Verif.Props.Seq
import Verif.Props.Seq2
import Verif.Props.SeqClose
import Verif.Props.SeqConsume
import Verif.Props.SeqStack
import Verif.Props.Serialize
import Verif.Props.Slice
import Verif.Props.SliceAssign
import Verif.Props.StopIter
import Verif.Props.TaggedUnion
import Verif.Props.Text
import Verif.Props.TraverseAny
import Verif.Props.TryBody
import Verif.Props.Typing
import Verif.Props.UnionClass
import Verif.Props.UnionClass2
import Verif.Props.UnionOrder
import Verif.Props.With
import Verif.Props.Worker
import Verif.Spec.Agent
import Verif.Spec.Aio
import Verif.Spec.Answers
import Verif.Spec.Array
import Verif.Spec.ArrayLive
import Verif.Spec.ArraySeq
import Verif.Spec.AsyncSeq
import Verif.Spec.AsyncShared
import Verif.Spec.AsyncStack
import Verif.Spec.AsyncStop
import Verif.Spec.Balance
import Verif.Spec.BlockCost
import Verif.Spec.Builder
import Verif.Spec.CallStack
import Verif.Spec.CancelInterrupt
import Verif.Spec.Cancellation
import Verif.Spec.Composite
import Verif.Spec.Dict
import Verif.Spec.Disposable
import Verif.Spec.FromIterable
import Verif.Spec.Functions
import Verif.Spec.Grammar
import Verif.Spec.GrammarCost
import Verif.Spec.Interleave
import Verif.Spec.Interrupt
import Verif.Spec.Linked
import Verif.Spec.ListLoops
import Verif.Spec.Loop
import Verif.Spec.Loops
import Verif.Spec.Mailbox
import Verif.Spec.MailboxInterrupt
import Verif.Spec.MapApi
import Verif.Spec.MapHeap
import Verif.Spec.MapHost
import Verif.Spec.MapSource
import Verif.Spec.MapView
import Verif.Spec.Match
import Verif.Spec.Modules
import Verif.Spec.Monadic
import Verif.Spec.Network
import Verif.Spec.OptId
import Verif.Spec.Parse
import Verif.Spec.ParserError
import Verif.Spec.ParserStack
import Verif.Spec.ParserText
import Verif.Spec.SeqClose
import Verif.Spec.SeqStack
import Verif.Spec.Serialize
import Verif.Spec.Sim
import Verif.Spec.Slice
import Verif.Spec.Sorting
import Verif.Spec.StopIter
import Verif.Spec.TraverseAny
import Verif.Spec.TryBody
import Verif.Spec.Unfold
import Verif.Spec.Union
import Verif.Spec.UnionClass
import Verif.Spec.Worker
