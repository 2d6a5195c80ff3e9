import Verif.Props.Projection
import Verif.Props.ProjectionList
import Verif.Props.Population
import Verif.Props.Uid
import Verif.Props.Tag
import Verif.Props.Messages
import Verif.Props.Bus
import Verif.Props.Network
import Verif.Props.ModelLoader
import Verif.Props.Backend
import Verif.Props.Io
import Verif.Props.Handlers
import Verif.Props.Validation
import Verif.Props.Delta
import Verif.Props.Neurons
import Verif.Props.NeuronStep
import Verif.Props.PopStep
import Verif.Props.Stdp
import Verif.Props.StdpRules
import Verif.Props.StdpTrain
import Verif.Props.ThreadPool
import Verif.Props.BackendLoad
import Verif.Props.Generators
import Verif.Props.Dataset
import Verif.Props.Evaluation
import Verif.Props.Monitoring
import Verif.Props.Normalize
import Verif.Props.Storage
import Verif.Props.Sonata
import Verif.Props.System
import Verif.Props.SystemMulti
import Verif.Props.StdpMore
import Verif.Props.Learn
import Verif.Props.AdditiveRule
import Verif.Props.AltaiRuns
import Verif.Props.LearnRule
import Verif.Props.Program
import Verif.Props.LearnMulti
import Verif.Lemmas.LearnMultiTrace
import Verif.Props.LearnThreads
import Verif.Props.Zmq
import Verif.Props.Cuda
import Verif.Props.CudaNeuron
import Verif.Props.CudaVector
import Verif.Props.Visualizer
import Verif.Props.VisualizerLayout
import Verif.Props.Devices
import Verif.Props.Names
import Verif.Props.Inference
import Verif.Props.Wta
import Verif.Props.ProgramThreads
import Verif.Props.Valid
import Verif.Props.ValidState
import Verif.Props.StdpFloat
import Verif.Props.Resume
import Verif.Props.ProgramLog
import Verif.Props.Mnist
import Verif.Props.MnistTraining
import Verif.Props.ProgramCopy
import Verif.Props.MnistInference
import Verif.Props.MnistLog
import Verif.Props.Simple
import Verif.Props.Client
import Verif.Props.Loader
import Verif.Props.Power
import Verif.Props.MnistAltai
