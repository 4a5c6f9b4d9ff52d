import Verif.Field.PropsTower
import Verif.Field.PropsPacked
import Verif.Field.PropsGenerators
import Verif.Field.PropsTables
import Verif.Utils.PropsSerialization
import Verif.Utils.PropsSorting
import Verif.Utils.PropsGraph
import Verif.Utils.PropsStrided
import Verif.Math.PropsTensor
import Verif.Math.PropsFold
import Verif.Math.PropsMatrix
import Verif.Math.PropsUnivariate
import Verif.Math.PropsPiecewise
import Verif.Math.PropsArith
import Verif.Math.PropsSubspace
import Verif.NTT.PropsNtt
import Verif.NTT.PropsMulti
import Verif.Code.PropsReedSolomon
import Verif.NTT.PropsFri
import Verif.Merkle.PropsMerkle
import Verif.Transcript.PropsTranscript
import Verif.Sumcheck.PropsSumcheck
import Verif.Sumcheck.PropsFrontLoaded
import Verif.Transparent.PropsTransparent
import Verif.Transparent.PropsShift
import Verif.Channel.PropsChannel
import Verif.Oracle.PropsOracle
import Verif.Evalcheck.PropsEvalcheck
import Verif.Balance.PropsBalance
import Verif.Gkr.PropsGrandProduct
import Verif.Gkr.PropsExp
import Verif.Piop.PropsCommit
import Verif.Piop.PropsClaims
import Verif.M3.ModelTable
import Verif.M3.SpecTable
import Verif.M3.LemmasTable
import Verif.M3.LemmasBuilder
import Verif.M3.ModelAdd
import Verif.M3.LemmasNum
import Verif.M3.LemmasAdd
import Verif.M3.LemmasTower
import Verif.M3.PropsAdd
import Verif.M3.LemmasWide
import Verif.M3.PropsWide
import Verif.M3.SpecBarrel
import Verif.M3.ModelBarrel
import Verif.M3.LemmasBarrel
import Verif.M3.PropsBarrel
import Verif.M3.SpecMul
import Verif.M3.ModelMul
import Verif.M3.LemmasMul
import Verif.M3.PropsMul
import Verif.M3.ModelSign
import Verif.M3.LemmasSign
import Verif.M3.PropsSign
import Verif.M3.SpecSigned
import Verif.M3.ModelSigned
import Verif.M3.LemmasSigned
import Verif.M3.LemmasSigned2
import Verif.M3.LemmasSigned3
import Verif.M3.LemmasSigned4
import Verif.M3.LemmasMulSU
import Verif.M3.LemmasDiv
import Verif.M3.LemmasDivUU
import Verif.M3.PropsDivUU
import Verif.M3.LemmasDivSS
import Verif.M3.LemmasDivSS2
import Verif.M3.LemmasDivSS3
import Verif.M3.LemmasDivSS4
import Verif.M3.PropsDivSS
import Verif.M3.PropsSigned
import Verif.M3.PropsBuilder
import Verif.M3.LemmasLookup
import Verif.M3.LemmasLookup2
import Verif.M3.LemmasLookup3
import Verif.M3.LemmasLookup4
import Verif.M3.PropsLookup
import Verif.M3.PropsEmulate
import Verif.Compute.PropsMemory
import Verif.Protocol.LemmasSeq
import Verif.Sumcheck.ModelEqInd
import Verif.Sumcheck.SpecEqInd
import Verif.Sumcheck.LemmasEqInd
import Verif.Sumcheck.LemmasEqInd2
import Verif.Sumcheck.PropsEqInd
import Verif.Gkr.ModelGpa
import Verif.Gkr.SpecGpa
import Verif.Gkr.LemmasGpa
import Verif.Gkr.LemmasGpa2
import Verif.Gkr.LemmasGpa3
import Verif.Gkr.LemmasGpa4
import Verif.Gkr.PropsGpa
import Verif.Sumcheck.ModelZerocheck
import Verif.Sumcheck.SpecZerocheck
import Verif.Sumcheck.LemmasZerocheck
import Verif.Sumcheck.LemmasZerocheck2
import Verif.Sumcheck.LemmasZerocheck3
import Verif.Sumcheck.LemmasZerocheck4
import Verif.Sumcheck.PropsZerocheck
import Verif.Fri.ModelFri
import Verif.Fri.SpecFri
import Verif.Fri.LemmasFold
import Verif.Fri.LemmasWords
import Verif.Fri.LemmasFast
import Verif.Fri.LemmasHonest
import Verif.Fri.LemmasFolder
import Verif.Fri.LemmasVerify
import Verif.Fri.PropsFri
import Verif.Fri.PropsFriParams
import Verif.Fri.LemmasSound
import Verif.Fri.PropsFriSound
import Verif.RingSwitch.ModelTensor
import Verif.RingSwitch.ModelRingSwitch
import Verif.RingSwitch.SpecRingSwitch
import Verif.RingSwitch.LemmasTensor
import Verif.RingSwitch.LemmasEqInd
import Verif.RingSwitch.LemmasSystem
import Verif.RingSwitch.LemmasVerify
import Verif.RingSwitch.LemmasSoundness
import Verif.RingSwitch.LemmasComplete
import Verif.RingSwitch.LemmasFits
import Verif.RingSwitch.PropsRingSwitch
import Verif.Protocol.LemmasPostL
import Verif.Gkr.ModelExpBatch
import Verif.Gkr.SpecExpBatch
import Verif.Gkr.LemmasExpBatch
import Verif.Gkr.LemmasExpBatch2
import Verif.Gkr.LemmasExpBatch3
import Verif.Gkr.LemmasExpBatch4
import Verif.Gkr.PropsExpBatch
import Verif.Sumcheck.ModelBivariate
import Verif.Sumcheck.SpecBivariate
import Verif.Sumcheck.PropsBivariate
import Verif.Piop.ModelPiop
import Verif.Piop.SpecPiop
import Verif.Piop.LemmasPiop
import Verif.Piop.LemmasPiopSound
import Verif.Piop.LemmasPiopDesc
import Verif.Piop.LemmasPiopEnd
import Verif.Piop.LemmasPiopVerify
import Verif.Piop.LemmasPiopComplete
import Verif.Piop.LemmasPiopProve
import Verif.Piop.PropsPiop
import Verif.Piop.ModelMerge
import Verif.Piop.SpecMerge
import Verif.Piop.LemmasMerge
import Verif.Piop.PropsMerge
import Verif.Math.ModelCompile
import Verif.Math.SpecCompile
import Verif.Math.LemmasCompile
import Verif.Math.LemmasCompileConv
import Verif.Math.PropsCompile
import Verif.Sumcheck.ModelProverState
import Verif.Sumcheck.SpecProverState
import Verif.Sumcheck.LemmasProverState
import Verif.Sumcheck.LemmasRound
import Verif.Sumcheck.LemmasProverFold
import Verif.Sumcheck.LemmasRegular
import Verif.Sumcheck.PropsRegular
import Verif.Sumcheck.ModelEqIndProver
import Verif.Sumcheck.SpecEqIndProver
import Verif.Sumcheck.LemmasEqSuffix
import Verif.Sumcheck.LemmasEqRound
import Verif.Sumcheck.PropsEqIndProver
import Verif.M3.SpecSha256
import Verif.M3.ModelSha256
import Verif.M3.LemmasSha256
import Verif.M3.LemmasSha256Round
import Verif.M3.LemmasSha256Front
import Verif.M3.LemmasSha256Top
import Verif.M3.PropsSha256
import Verif.Field.ModelPolyvalTables
import Verif.Field.ModelPolyval
import Verif.Field.SpecPolyval
import Verif.Field.LemmasPolyvalMul
import Verif.Field.LemmasPolyvalRed
import Verif.Field.LemmasPolyvalData
import Verif.Field.LemmasPolyvalField
import Verif.Field.PropsPolyval
import Verif.Sumcheck.ModelMlecheck
import Verif.Sumcheck.SpecMlecheck
import Verif.Sumcheck.PropsMlecheck
import Verif.M3.ModelKeccak
import Verif.M3.SpecKeccak
import Verif.M3.PropsKeccak
import Verif.Hash.SpecSponge
import Verif.Hash.SpecDigest
import Verif.Hash.ModelHash
import Verif.Hash.PropsHash
import Verif.NTT.ModelOdd
import Verif.NTT.PropsOdd
import Verif.Compute.SpecKernel
import Verif.Compute.ModelKernel
import Verif.Compute.PropsKernel
import Verif.Compute.SpecOps
import Verif.Compute.ModelOps
import Verif.Compute.PropsOps
import Verif.M3.SpecMerkle
import Verif.M3.ModelMerkle
import Verif.M3.LemmasMerkleGen
import Verif.M3.PropsMerkle
import Verif.Hash.SpecGroestl
import Verif.Hash.ModelGroestlTable
import Verif.Hash.ModelGroestl
import Verif.Hash.LemmasGroestlTable
import Verif.Hash.LemmasGroestl
import Verif.Hash.LemmasGroestlHash
import Verif.Hash.PropsGroestl
import Verif.M3.ModelGroestl
import Verif.M3.LemmasGroestl
import Verif.M3.PropsGroestl
import Verif.M3.SpecMerkleGroestl
import Verif.M3.ModelMerkleGroestl
import Verif.M3.LemmasMerkleGroestl
import Verif.M3.PropsMerkleGroestl
import Verif.Utils.SpecContainers
import Verif.Utils.ModelContainers
import Verif.Utils.LemmasContainers
import Verif.Utils.PropsContainers
import Verif.Math.ModelRowsBatch
import Verif.Math.PropsRowsBatch
import Verif.Oracle.ModelTransparentMle
import Verif.Oracle.PropsTransparentMle
import Verif.Oracle.ModelRegistry
import Verif.Oracle.PropsRegistry
import Verif.Math.ModelComposite
import Verif.Math.PropsComposite
