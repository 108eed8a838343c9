import Verif.Rust
import Verif.Model.Common
import Verif.Model.Sha256
import Verif.Model.Hmac
import Verif.Model.Pbkdf2
import Verif.Model.Salsa20
import Verif.Model.Scrypt
import Verif.Model.Aes
import Verif.Model.Pkcs7
import Verif.Model.AesCbc
import Verif.Props.Sha256
import Verif.Props.Hmac
import Verif.Props.Pbkdf2
import Verif.Props.Salsa20
import Verif.Props.Scrypt
import Verif.Props.Aes
import Verif.Props.AesPoly
import Verif.Props.Pkcs7
import Verif.Props.Cbc
import Verif.Props.CbcHistory
import Verif.Props.Common
import Verif.Props.Password
import Verif.Props.ScryptShape
import Verif.Props.Sha256Structure
import Verif.Props.Salsa20Sym
import Verif.Props.CbcMisuse
import Verif.Props.CbcSplit
import Verif.Spec.Hex
import Verif.Props.Hex
import Verif.Proof.Mono
import Verif.Props.Platform
import Verif.Model.Counted
import Verif.Proof.Counted
import Verif.Props.Work
import Verif.Tests.Sha256
import Verif.Tests.Hmac
import Verif.Tests.Pbkdf2
import Verif.Tests.Salsa20
import Verif.Tests.Scrypt
import Verif.Tests.Aes
import Verif.Tests.AesCbc
import Verif.Tests.Pkcs7
import Verif.Source.Refine.Scrypt
import Verif.Source.Refine.AesCbc
import Verif.Source.Api
import Verif.Props.SourceHash
import Verif.Props.SourceScrypt
import Verif.Props.SourceCbc
import Verif.Props.SourceTotal
import Verif.Source.Leak
import Verif.Source.Secrecy
import Verif.Props.ConstantTime
import Verif.Source.AttrTrace
import Verif.Source.TraceLemmas
import Verif.Proof.KeyRecovery
import Verif.Source.TraceAes
import Verif.Source.TraceCbc
import Verif.Props.SideChannel
import Verif.Source.TraceCipher
import Verif.Props.SideChannelCbc
import Verif.Props.PaddingOracle
import Verif.Props.Attack
import Verif.Props.Guess
import Verif.Source.Unwind
import Verif.Source.Frame
import Verif.Source.Left
import Verif.Source.LeftSha
import Verif.Source.LeftHmac
import Verif.Source.Caught
import Verif.Props.AfterPanic
import Verif.Props.SideChannelScrypt
import Verif.Tests.Source
import Verif.Source.LeftPbkdf2
import Verif.Source.LeftScrypt
import Verif.Source.LeftSalsa
import Verif.Props.Untouched
import Verif.Props.Resume
import Verif.Props.Interleave
import Verif.Tests.Text
import Verif.Text.Program
import Verif.Props.FromText
import Verif.Props.ModelText
import Verif.Props.TextDefects
import Verif.Props.Confidential
import Verif.Props.HmacCollision
import Verif.Props.DerivedKeys
import Verif.Props.Forgery
import Verif.Props.ScryptKeys
import Verif.Props.Garbage
import Verif.Props.HmacRandom
import Verif.Props.SourceWork
import Verif.Props.SourceWorkCbc
import Verif.Props.SourceWorkHistory
import Verif.Props.Kept
import Verif.Props.Growing
import Verif.Props.Sealed
import Verif.Props.Locked
import Verif.Props.Diffusion
import Verif.Props.Rekey
import Verif.Props.Commit
import Verif.Props.Memory
import Verif.Props.MemoryCbc
import Verif.Props.GrowingSame
import Verif.Props.ManySalts
import Verif.Props.CbcSpread
import Verif.Props.SecretIv
import Verif.Props.SourcePkcs7
import Verif.Props.Guessing
import Verif.Props.GuessingScrypt
import Verif.Props.TableMemory
import Verif.Props.MemoryHard
import Verif.Props.MemoryTime
import Verif.Props.Multicollision
import Verif.Props.KeySchedule
import Verif.Props.HmacExtend
import Verif.Props.Trail
import Verif.Props.Linear
import Verif.Props.FixedPoint
import Verif.Props.Even
import Verif.Props.Iterations
import Verif.Props.CbcMac
import Verif.Props.CbcPaste
import Verif.Props.ShortTags
import Verif.Props.TwoKeys
import Verif.Props.Chase
import Verif.Props.OnePart
import Verif.Props.WhichError
import Verif.Props.Caught
import Verif.Props.CaughtDecipher
import Verif.Props.CbcCut
import Verif.Props.Rejected
import Verif.Props.CacheLines
import Verif.Props.Stray
import Verif.Props.Branches
import Verif.Props.Peek
