import Verif.BlendInv
import Verif.CorrectSols
import Verif.Cvc5
import Verif.Decode
import Verif.Demangle
import Verif.DepthGrammar
import Verif.DslFns
import Verif.DslPy
import Verif.DslTensor
import Verif.DslText
import Verif.FnEval
import Verif.Gaudi
import Verif.GaudiProof
import Verif.GaudiSem
import Verif.GaudiSpec
import Verif.Gemmini
import Verif.GemminiMain
import Verif.GemminiProof
import Verif.GemminiSem
import Verif.GemminiSpec
import Verif.GeneralSpace
import Verif.Grammar
import Verif.HoleSpace
import Verif.Ir
import Verif.ListObj
import Verif.LlamaInv
import Verif.LlamaSols
import Verif.LlmDissolve
import Verif.LlmDissolveSpec
import Verif.LlmLoop
import Verif.LlmMono
import Verif.LlmNames
import Verif.LlmParser
import Verif.LlmPrompt
import Verif.LlmPy
import Verif.LlmReply
import Verif.LlmReplySpec
import Verif.LlmSound
import Verif.LlmSpec
import Verif.LlmTest
import Verif.Llvm
import Verif.LlvmCfg
import Verif.LlvmCheck
import Verif.LlvmEqn
import Verif.LlvmLib
import Verif.LlvmLibSpec
import Verif.LlvmMerge
import Verif.LlvmRun
import Verif.LlvmSem
import Verif.LlvmSim
import Verif.LlvmSound
import Verif.LoopsFile
import Verif.Names
import Verif.NumpyFns
import Verif.NumpyGen
import Verif.NumpyParse
import Verif.NumpySelect
import Verif.NumpySem
import Verif.NumpySound
import Verif.NumpySpec
import Verif.PBits
import Verif.PBlendInv
import Verif.PCorrectSols
import Verif.PCvc5
import Verif.PCvc5Cand
import Verif.PDecode
import Verif.PDecodeEx
import Verif.PDemangle
import Verif.PDepthGrammar
import Verif.PDriverEnd
import Verif.PDriverGrammar
import Verif.PDriverGrammarEx
import Verif.PDslFns
import Verif.PDslRuns
import Verif.PDslTensor
import Verif.PDslText
import Verif.PDslValues
import Verif.PEndToEnd
import Verif.PEndToEndEx
import Verif.PGaudi
import Verif.PGaudiEx
import Verif.PGaudiSel
import Verif.PGaudiSelEx
import Verif.PGemmini
import Verif.PGeneralSpace
import Verif.PGrammar
import Verif.PHoleSpace
import Verif.PIntFns
import Verif.PIr
import Verif.PListArith
import Verif.PListObj
import Verif.PLists
import Verif.PLlamaInv
import Verif.PLlamaSols
import Verif.PLlm
import Verif.PLlmComments
import Verif.PLlmDissolve
import Verif.PLlmDissolveFns
import Verif.PLlmLoop
import Verif.PLlmPrompt
import Verif.PLlmPromptEx
import Verif.PLlmReply
import Verif.PLlmReplyEx
import Verif.PLlmTest
import Verif.PLlvm
import Verif.PLlvmCfg
import Verif.PLlvmEnd
import Verif.PLlvmEndEx
import Verif.PLlvmLib
import Verif.PLlvmLibEx
import Verif.PLlvmSound
import Verif.PLoopsFile
import Verif.PNumpy
import Verif.PPrune
import Verif.PPyDriver
import Verif.PPyFrontend
import Verif.PPyTracker
import Verif.PRktLib
import Verif.PRosette
import Verif.PRosetteFile
import Verif.PRosetteFileEx
import Verif.PRounds
import Verif.PRoundsEx
import Verif.PSetObj
import Verif.PSets
import Verif.PSmtAccept
import Verif.PSmtDetermine
import Verif.PSmtFiles
import Verif.PSmtQuery
import Verif.PSmtSpec
import Verif.PSmtText
import Verif.PSygus
import Verif.PSymVars
import Verif.PSynthBits
import Verif.PSynthFile
import Verif.PSynthFileEx
import Verif.PSynthLoop
import Verif.PTenAxioms
import Verif.PTenLoop
import Verif.PTenModel
import Verif.PTenSelAxioms
import Verif.PTenspiler
import Verif.PToPython
import Verif.PTopo
import Verif.PVarTracker
import Verif.Prune
import Verif.PyDriver
import Verif.PyExprLemmas
import Verif.PyFrontend
import Verif.PyModule
import Verif.PyParse
import Verif.PyRegex
import Verif.PySound
import Verif.PyStmtLemmas
import Verif.PySyntax
import Verif.PyTracker
import Verif.PyTyped
import Verif.RktBits
import Verif.RktFile
import Verif.RktFileRead
import Verif.RktLib
import Verif.RktLib2
import Verif.RktLists
import Verif.RktProg
import Verif.RktRounds
import Verif.RktSem
import Verif.RktSynth
import Verif.RktSynthBits
import Verif.Rosette
import Verif.RosetteComplete
import Verif.RosetteFile
import Verif.RosetteFileText
import Verif.RosetteModule
import Verif.RosettePrims
import Verif.RosetteRun
import Verif.SetObj
import Verif.Simplify
import Verif.SimplifyLemmas
import Verif.SmtFiles
import Verif.SmtFilesRead
import Verif.SmtLists
import Verif.SmtSem
import Verif.SmtSpec
import Verif.SmtText
import Verif.SmtUtil
import Verif.Sygus
import Verif.SygusSem
import Verif.SymVars
import Verif.SynthExpand
import Verif.SynthFile
import Verif.SynthFileRead
import Verif.SynthFileText
import Verif.SynthForms
import Verif.SynthLoop
import Verif.TenAxioms
import Verif.TenLoop
import Verif.TenSelAxioms
import Verif.Tenspiler
import Verif.ToPython
import Verif.Typing
import Verif.VarTracker
import Verif.VcUtil
import Verif.VcUtilLemmas
