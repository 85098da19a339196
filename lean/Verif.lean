import Verif.AbsRounded
import Verif.Arith
import Verif.Bilinear.Derive
import Verif.Bilinear.DeriveG
import Verif.Bilinear.Model
import Verif.Bilinear.Real
import Verif.BitPack
import Verif.Block.Buffer
import Verif.Block.Buffer3
import Verif.Block.Codec
import Verif.Block.Engine
import Verif.Block.Fit
import Verif.Block.Full
import Verif.Block.Optimize
import Verif.Block.Plan
import Verif.Block.Real
import Verif.Block.Toy
import Verif.Bound2D
import Verif.Bound2DRounded
import Verif.Bytes
import Verif.DriverU
import Verif.Drivers
import Verif.Estimate
import Verif.Extract.Files
import Verif.Extract.Report
import Verif.Extract.Three
import Verif.Extract.Two
import Verif.Extract.Types
import Verif.FloatErr
import Verif.Huffman.Blocks
import Verif.Huffman.Code
import Verif.Huffman.Deep
import Verif.Huffman.Heap
import Verif.Huffman.Model
import Verif.Huffman.Optimal
import Verif.Huffman.Prefix
import Verif.Huffman.Queue
import Verif.Huffman.Reader
import Verif.Huffman.Serial
import Verif.Huffman.Top
import Verif.Huffman.Trie
import Verif.Huffman.Wide
import Verif.Huffman.WithTree
import Verif.Huffman.Writer
import Verif.Ieee.Arith
import Verif.Ieee.Bilinear
import Verif.Ieee.Bits
import Verif.Ieee.Block
import Verif.Ieee.Keep
import Verif.Ieee.Log3
import Verif.Ieee.LogLib
import Verif.Ieee.LogRun
import Verif.Ieee.Rel
import Verif.Ieee.Round
import Verif.Ieee.Run
import Verif.Ieee.Run3
import Verif.Ieee.Sz3
import Verif.Ieee.Sz3Run
import Verif.LogRounded
import Verif.Lossless
import Verif.Mesh2D
import Verif.Offline2D.Bound
import Verif.Offline2D.Codec
import Verif.Offline2D.Model
import Verif.Offline2D.Real
import Verif.Offline3D.Approx
import Verif.Offline3D.Binary32
import Verif.Offline3D.Bound
import Verif.Offline3D.Exceeds
import Verif.Offline3D.Model
import Verif.Offline3D.Real
import Verif.Online2D.Abs
import Verif.Online2D.Bytes
import Verif.Online2D.Lockstep
import Verif.Online2D.Model
import Verif.Online2D.Real
import Verif.Props.Abs2D
import Verif.Props.Affine
import Verif.Props.Axes
import Verif.Props.Bilinear
import Verif.Props.BilinearAgree
import Verif.Props.BilinearSign
import Verif.Props.Block
import Verif.Props.Block3
import Verif.Props.BlockMore
import Verif.Props.Blocks
import Verif.Props.Bytes
import Verif.Props.Choice
import Verif.Props.Complete
import Verif.Props.Deep
import Verif.Props.DriverU
import Verif.Props.Drivers
import Verif.Props.Estimate
import Verif.Props.Extract
import Verif.Props.Extract3D
import Verif.Props.Files
import Verif.Props.Fit
import Verif.Props.FloatAbs
import Verif.Props.FloatBlock
import Verif.Props.FloatCP
import Verif.Props.HuffHeap
import Verif.Props.Huffman
import Verif.Props.Ieee
import Verif.Props.Ieee3
import Verif.Props.Ieee3CP
import Verif.Props.IeeeAgree
import Verif.Props.IeeeBilinear
import Verif.Props.IeeeBilinearCells
import Verif.Props.IeeeBlock
import Verif.Props.IeeeCP
import Verif.Props.IeeeCheck
import Verif.Props.IeeeCodes
import Verif.Props.IeeeFixed
import Verif.Props.IeeeLog
import Verif.Props.IeeeLog3
import Verif.Props.IeeeLog3Z
import Verif.Props.IeeeRel
import Verif.Props.IeeeRelax
import Verif.Props.IeeeSigns
import Verif.Props.IeeeSz3
import Verif.Props.IeeeUnstr
import Verif.Props.IeeeVerify
import Verif.Props.IeeeZero
import Verif.Props.Lattice
import Verif.Props.Log2D
import Verif.Props.LogRounded
import Verif.Props.Lossless
import Verif.Props.Mesh3D
import Verif.Props.Offline2D
import Verif.Props.Offline3D
import Verif.Props.Online2D
import Verif.Props.Predict
import Verif.Props.Pwr
import Verif.Props.Quant
import Verif.Props.Relax
import Verif.Props.Requant
import Verif.Props.Residue
import Verif.Props.Roots
import Verif.Props.Rounded
import Verif.Props.Signs
import Verif.Props.Sizes
import Verif.Props.Special
import Verif.Props.Sz3
import Verif.Props.ThreeD
import Verif.Props.Types
import Verif.Props.Units
import Verif.Props.Unstructured
import Verif.Props.Verify
import Verif.Props.Wide
import Verif.Props.WithTree
import Verif.Pwr
import Verif.Quant
import Verif.Relax.Eval
import Verif.Relax.Lockstep
import Verif.Relax.Model
import Verif.Relax.Real
import Verif.Requant
import Verif.Residue
import Verif.Roots
import Verif.RootsNear
import Verif.RoundedRun
import Verif.Rounding
import Verif.Scan
import Verif.Spec2D
import Verif.Special
import Verif.Stream
import Verif.Sz3.Lockstep
import Verif.Sz3.Model
import Verif.Sz3.Plan
import Verif.Sz3.Real
import Verif.ThreeD.Bound
import Verif.ThreeD.Grid
import Verif.ThreeD.Mesh
import Verif.ThreeD.Modes
import Verif.ThreeD.Spec
import Verif.ThreeD.Sweep
import Verif.ThreeD.Unstructured
import Verif.Toy
import Verif.VMode.Guard
import Verif.VMode.LockFin
import Verif.VMode.Lockstep
import Verif.VMode.Log
import Verif.VMode.Log2D
import Verif.VMode.Model
import Verif.VMode.One
import Verif.VMode.Real
import Verif.Verify
