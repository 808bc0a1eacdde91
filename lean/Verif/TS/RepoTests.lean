/-
The tests of package ts (/repo/ts/*_test.go), run on the model by the kernel.  They are no proofs of properties; they check
that the model does on the data of the project what the project expects of the code.
-/
import Verif.TS.DemuxModel
namespace Mpeg.TS.RepoTests

/-- ts/data_test.go:9-14 -/
def nullPacket : List UInt8 := [
  0x47, 0x1f, 0xff, 0x10, 0xff, 0xff, 0xff, 0xff, 0xff, 0xff, 0xff, 0xff, 0xff, 0xff, 0xff, 0xff, 0xff, 0xff, 0xff, 0xff,
  0xff, 0xff, 0xff, 0xff, 0xff, 0xff, 0xff, 0xff, 0xff, 0xff, 0xff, 0xff, 0xff, 0xff, 0xff, 0xff, 0xff, 0xff, 0xff, 0xff,
  0xff, 0xff, 0xff, 0xff, 0xff, 0xff, 0xff, 0xff, 0xff, 0xff, 0xff, 0xff, 0xff, 0xff, 0xff, 0xff, 0xff, 0xff, 0xff, 0xff,
  0xff, 0xff, 0xff, 0xff, 0xff, 0xff, 0xff, 0xff, 0xff, 0xff, 0xff, 0xff, 0xff, 0xff, 0xff, 0xff, 0xff, 0xff, 0xff, 0xff,
  0xff, 0xff, 0xff, 0xff, 0xff, 0xff, 0xff, 0xff, 0xff, 0xff, 0xff, 0xff, 0xff, 0xff, 0xff, 0xff, 0xff, 0xff, 0xff, 0xff,
  0xff, 0xff, 0xff, 0xff, 0xff, 0xff, 0xff, 0xff, 0xff, 0xff, 0xff, 0xff, 0xff, 0xff, 0xff, 0xff, 0xff, 0xff, 0xff, 0xff,
  0xff, 0xff, 0xff, 0xff, 0xff, 0xff, 0xff, 0xff, 0xff, 0xff, 0xff, 0xff, 0xff, 0xff, 0xff, 0xff, 0xff, 0xff, 0xff, 0xff,
  0xff, 0xff, 0xff, 0xff, 0xff, 0xff, 0xff, 0xff, 0xff, 0xff, 0xff, 0xff, 0xff, 0xff, 0xff, 0xff, 0xff, 0xff, 0xff, 0xff,
  0xff, 0xff, 0xff, 0xff, 0xff, 0xff, 0xff, 0xff, 0xff, 0xff, 0xff, 0xff, 0xff, 0xff, 0xff, 0xff, 0xff, 0xff, 0xff, 0xff,
  0xff, 0xff, 0xff, 0xff, 0xff, 0xff, 0xff, 0xff]

/-- ts/data_test.go:17-22 -/
def dataPacket : List UInt8 := [
  0x47, 0x00, 0x21, 0x1d, 0xba, 0x41, 0xac, 0x59, 0x34, 0x12, 0x2b, 0x6a, 0x61, 0xef, 0x7f, 0xe8, 0xca, 0xaa, 0x7c, 0xbb,
  0xa4, 0xe4, 0x45, 0x35, 0x23, 0x25, 0x55, 0x22, 0x2a, 0xe9, 0x3e, 0x13, 0x49, 0xe2, 0xd6, 0x78, 0x7f, 0x77, 0x4f, 0x1a,
  0xee, 0xe9, 0xf5, 0xd3, 0x2a, 0x98, 0x21, 0x12, 0x24, 0x41, 0x97, 0xa9, 0xe8, 0x44, 0xf1, 0x5e, 0x45, 0xea, 0x8a, 0x1c,
  0xf7, 0xa6, 0xaa, 0x9e, 0xde, 0xea, 0xa7, 0xbb, 0x39, 0xe2, 0x5d, 0xcd, 0x74, 0xf6, 0x72, 0x6e, 0xb7, 0x82, 0x73, 0x6a,
  0x80, 0x00, 0x00, 0x01, 0x1b, 0x52, 0x8b, 0x66, 0x92, 0x4b, 0x07, 0x49, 0xfb, 0xd4, 0x85, 0x67, 0x0d, 0x06, 0x18, 0x69,
  0xd6, 0xb3, 0x1d, 0x83, 0x39, 0x04, 0x4b, 0xa0, 0x43, 0x73, 0xa1, 0x29, 0x06, 0x80, 0x93, 0x5d, 0x4c, 0x3d, 0xfb, 0x57,
  0xce, 0xf5, 0x5e, 0xea, 0x19, 0xe1, 0x94, 0xb9, 0xee, 0x2e, 0x4d, 0xd3, 0xe0, 0x2e, 0x36, 0x46, 0x82, 0x43, 0x7d, 0x0d,
  0x6c, 0x04, 0xa0, 0xa4, 0xb2, 0xc0, 0xc1, 0x31, 0x3c, 0xa8, 0x01, 0x98, 0x01, 0xf7, 0xc0, 0x0f, 0xd6, 0x4c, 0x04, 0x9f,
  0xf9, 0x1e, 0x6c, 0x03, 0x3b, 0xea, 0xa1, 0xb5, 0x92, 0xcd, 0x01, 0xa0, 0x26, 0x2c, 0x96, 0x19, 0x31, 0xff, 0x40, 0x27,
  0x00, 0xc5, 0x88, 0x58, 0x94, 0x05, 0x4b, 0x13]

/-- ts/data_test.go:24-42 -/
def shortTsStream : List UInt8 := [
  0x47, 0x00, 0x21, 0x1d, 0xba, 0x41, 0xac, 0x59, 0x34, 0x12, 0x2b, 0x6a, 0x61, 0xef, 0x7f, 0xe8, 0xca, 0xaa, 0x7c, 0xbb,
  0xa4, 0xe4, 0x45, 0x35, 0x23, 0x25, 0x55, 0x22, 0x2a, 0xe9, 0x3e, 0x13, 0x49, 0xe2, 0xd6, 0x78, 0x7f, 0x77, 0x4f, 0x1a,
  0xee, 0xe9, 0xf5, 0xd3, 0x2a, 0x98, 0x21, 0x12, 0x24, 0x41, 0x97, 0xa9, 0xe8, 0x44, 0xf1, 0x5e, 0x45, 0xea, 0x8a, 0x1c,
  0xf7, 0xa6, 0xaa, 0x9e, 0xde, 0xea, 0xa7, 0xbb, 0x39, 0xe2, 0x5d, 0xcd, 0x74, 0xf6, 0x72, 0x6e, 0xb7, 0x82, 0x73, 0x6a,
  0x80, 0x00, 0x00, 0x01, 0x1b, 0x52, 0x8b, 0x66, 0x92, 0x4b, 0x07, 0x49, 0xfb, 0xd4, 0x85, 0x67, 0x0d, 0x06, 0x18, 0x69,
  0xd6, 0xb3, 0x1d, 0x83, 0x39, 0x04, 0x4b, 0xa0, 0x43, 0x73, 0xa1, 0x29, 0x06, 0x80, 0x93, 0x5d, 0x4c, 0x3d, 0xfb, 0x57,
  0xce, 0xf5, 0x5e, 0xea, 0x19, 0xe1, 0x94, 0xb9, 0xee, 0x2e, 0x4d, 0xd3, 0xe0, 0x2e, 0x36, 0x46, 0x82, 0x43, 0x7d, 0x0d,
  0x6c, 0x04, 0xa0, 0xa4, 0xb2, 0xc0, 0xc1, 0x31, 0x3c, 0xa8, 0x01, 0x98, 0x01, 0xf7, 0xc0, 0x0f, 0xd6, 0x4c, 0x04, 0x9f,
  0xf9, 0x1e, 0x6c, 0x03, 0x3b, 0xea, 0xa1, 0xb5, 0x92, 0xcd, 0x01, 0xa0, 0x26, 0x2c, 0x96, 0x19, 0x31, 0xff, 0x40, 0x27,
  0x00, 0xc5, 0x88, 0x58, 0x94, 0x05, 0x4b, 0x13, 0x47, 0x00, 0x31, 0x16, 0xe9, 0x9a, 0x0e, 0xcb, 0x3e, 0x5d, 0x3a, 0xd0,
  0x9d, 0x5d, 0x74, 0xd2, 0x82, 0xda, 0x68, 0xb3, 0xb4, 0x65, 0x77, 0x31, 0x3d, 0x51, 0x35, 0x2a, 0x88, 0x7e, 0x01, 0xde,
  0x3e, 0xa0, 0xd3, 0x83, 0xa9, 0xd0, 0x5a, 0x84, 0xbd, 0x29, 0x3e, 0x4d, 0x9b, 0x35, 0x77, 0x16, 0x19, 0x9e, 0xa3, 0x28,
  0x54, 0xfc, 0x0d, 0xaa, 0x15, 0x36, 0x37, 0x4f, 0x3d, 0x0a, 0x9c, 0x28, 0x1f, 0xaf, 0x5d, 0x75, 0x83, 0x7c, 0xab, 0xae,
  0x85, 0xd6, 0xa9, 0xe5, 0xcf, 0x27, 0x2b, 0xc1, 0xa7, 0x07, 0x53, 0xa0, 0xbd, 0x08, 0x8e, 0xe5, 0x9d, 0x00, 0x00, 0x00,
  0x01, 0x07, 0x32, 0xaa, 0x2a, 0x71, 0xd7, 0x54, 0x4b, 0xcb, 0x93, 0x67, 0xd3, 0xa6, 0x07, 0x02, 0x26, 0xee, 0x6a, 0x74,
  0xb8, 0x56, 0x35, 0xdd, 0xd7, 0x78, 0x00, 0x79, 0x54, 0xe8, 0xc3, 0x69, 0xaa, 0x82, 0x76, 0xa1, 0x10, 0x9a, 0x15, 0x3d,
  0x80, 0x53, 0x87, 0x93, 0x9e, 0x46, 0x2c, 0x68, 0x09, 0x30, 0xdc, 0x49, 0x1d, 0xd4, 0xaf, 0x49, 0xce, 0x87, 0x51, 0x3a,
  0x33, 0xdb, 0x13, 0xe8, 0x4d, 0x32, 0xc4, 0xd1, 0x49, 0x85, 0x97, 0xfb, 0x9d, 0x87, 0x6d, 0xa4, 0x94, 0x81, 0xe6, 0xc1,
  0xa8, 0x38, 0x0b, 0xab, 0xe3, 0x22, 0x18, 0x61, 0x6c, 0x5b, 0x14, 0x50, 0xf1, 0xbf, 0x0a, 0x80, 0x47, 0x00, 0x21, 0x1e,
  0xca, 0x1d, 0x00, 0x25, 0x01, 0xd0, 0x09, 0x92, 0x51, 0x37, 0x24, 0x30, 0x08, 0x5b, 0x2e, 0x89, 0x6b, 0x07, 0x27, 0xb2,
  0x44, 0x14, 0x03, 0x66, 0x26, 0x14, 0x5f, 0x27, 0x81, 0xe8, 0x84, 0x03, 0x12, 0x66, 0x26, 0x00, 0xec, 0x62, 0xf0, 0xf1,
  0xd0, 0x60, 0x62, 0xc6, 0x14, 0xe4, 0x68, 0x9a, 0x5a, 0x71, 0x08, 0x98, 0x3c, 0x0e, 0x6d, 0x5a, 0x9a, 0x32, 0x80, 0x28,
  0x01, 0x97, 0x00, 0xb4, 0x98, 0x4d, 0x6c, 0x1d, 0xbf, 0x8a, 0xdc, 0x62, 0x2f, 0xf5, 0x9e, 0x26, 0xeb, 0x6a, 0x25, 0x30,
  0x68, 0x44, 0x92, 0x1f, 0x07, 0x5f, 0xe4, 0x5f, 0xea, 0x92, 0x5a, 0x5f, 0xb5, 0x36, 0x3b, 0x3e, 0x58, 0xc5, 0x42, 0x6c,
  0x93, 0x58, 0xfa, 0x1b, 0x2c, 0x62, 0x99, 0x37, 0x60, 0xa1, 0x4c, 0xa1, 0x90, 0x0b, 0xe1, 0xf4, 0x4a, 0xfe, 0x07, 0x8f,
  0xb8, 0x4d, 0xdf, 0xf1, 0xeb, 0x40, 0xb3, 0xd1, 0xda, 0xec, 0x0a, 0x05, 0x8f, 0x52, 0x59, 0x70, 0x40, 0x6b, 0x81, 0xea,
  0x0c, 0x26, 0x20, 0x78, 0x75, 0xa0, 0x0a, 0x06, 0x39, 0x20, 0x68, 0xe4, 0x91, 0xe8, 0x97, 0x40, 0x80, 0x63, 0xc5, 0xc8,
  0x37, 0xcb, 0x6c, 0x79, 0x02, 0x32, 0xff, 0x12, 0xc9, 0x00, 0x73, 0xed, 0xe4, 0x92, 0x18, 0x0d, 0x5d, 0x80, 0xc1, 0x08,
  0x84, 0x81, 0xbe, 0xe8, 0x47, 0x00, 0x41, 0x1b, 0x2b, 0xae, 0x55, 0x09, 0xfa, 0x63, 0x66, 0x13, 0xb3, 0x56, 0x04, 0x26,
  0x99, 0x72, 0xba, 0xdb, 0xd2, 0x8f, 0xcf, 0x62, 0x74, 0x61, 0x2b, 0x34, 0x3e, 0x8e, 0x91, 0x03, 0xc1, 0x15, 0x04, 0x02,
  0xa8, 0x24, 0x16, 0x44, 0x0d, 0x04, 0xc0, 0x00, 0x00, 0x01, 0x0a, 0x82, 0xb8, 0x4f, 0xcd, 0x0e, 0xba, 0x5d, 0x55, 0x33,
  0x96, 0x56, 0x99, 0x6e, 0xc8, 0xe5, 0xb4, 0x65, 0x26, 0x52, 0x47, 0x09, 0xd9, 0xa7, 0x3d, 0xea, 0x14, 0xf4, 0x8e, 0xa5,
  0x9a, 0xaa, 0xb4, 0x57, 0x48, 0x54, 0xc7, 0x4c, 0x74, 0x85, 0x09, 0x5e, 0x8b, 0x92, 0x83, 0xd0, 0x50, 0x35, 0x02, 0xa0,
  0xd2, 0x0e, 0x0d, 0x41, 0xad, 0x90, 0x60, 0xc0, 0x00, 0x00, 0x01, 0x0b, 0x82, 0xbb, 0xd2, 0xaa, 0x5d, 0x74, 0x99, 0x74,
  0xd9, 0x6d, 0x27, 0x5b, 0x29, 0x4a, 0x56, 0x95, 0xb0, 0x95, 0x93, 0x68, 0xc0, 0x39, 0x32, 0xc8, 0x26, 0xd2, 0x44, 0x05,
  0x55, 0x75, 0x70, 0x9d, 0x49, 0x7a, 0x48, 0xab, 0x49, 0x95, 0x23, 0x61, 0xa9, 0x8f, 0x4c, 0xab, 0xa0, 0xf0, 0x9a, 0x0d,
  0x08, 0x36, 0x9b, 0x1f, 0x4a, 0x80, 0x00, 0x00, 0x01, 0x0c, 0x62, 0xb8, 0x4d, 0xd2, 0x26, 0x69, 0x30, 0x98, 0xd4, 0xba,
  0xe8, 0x9d, 0xa3, 0x4b, 0x52, 0xd9, 0x36, 0x99, 0x49, 0x32, 0x4c, 0x99, 0x47, 0x00, 0x21, 0x1f, 0x99, 0xf1, 0xce, 0x80,
  0xf5, 0x12, 0xbf, 0xff, 0xdf, 0x92, 0x7c, 0xf4, 0x4b, 0xff, 0xc6, 0xdb, 0x45, 0xa2, 0x9b, 0x0d, 0x9f, 0x0c, 0x1f, 0x3f,
  0x79, 0x8d, 0x91, 0xa9, 0xa0, 0x50, 0xf2, 0x52, 0x1f, 0xf4, 0xc3, 0xa6, 0xe3, 0x24, 0xa2, 0x89, 0x8c, 0x0a, 0x11, 0x0f,
  0x4f, 0x3e, 0x30, 0xdb, 0x92, 0x53, 0x94, 0x5b, 0x0c, 0x0f, 0xf4, 0x4d, 0xa0, 0x41, 0x7a, 0xf3, 0xc7, 0x7c, 0xbd, 0xc4,
  0xe8, 0xbe, 0xb4, 0x11, 0x7d, 0x9b, 0x43, 0x65, 0x0f, 0x26, 0x86, 0x7e, 0xc0, 0x78, 0x51, 0xd4, 0x07, 0x88, 0xaf, 0xff,
  0x50, 0x5d, 0xd0, 0xf0, 0x35, 0x43, 0x5b, 0x01, 0x03, 0x69, 0x15, 0x5b, 0x0d, 0x9d, 0x67, 0xdd, 0x8a, 0xcd, 0x96, 0xf7,
  0x8f, 0x9a, 0xce, 0x8d, 0xa1, 0xa9, 0x0e, 0xb6, 0x7d, 0xd3, 0x47, 0x36, 0xe8, 0x91, 0x23, 0x48, 0xa7, 0xa9, 0x12, 0x2a,
  0x45, 0xd3, 0xd0, 0x89, 0x12, 0x24, 0x5d, 0x37, 0x72, 0x62, 0x3d, 0xd6, 0x18, 0x54, 0xf9, 0xd3, 0x57, 0x36, 0x42, 0x24,
  0x48, 0x8a, 0xba, 0x7a, 0x11, 0x22, 0x2a, 0x2a, 0xe9, 0xfd, 0x15, 0x22, 0x2a, 0x9e, 0x2e, 0x8a, 0xba, 0x7f, 0xaa, 0x44,
  0x8a, 0x87, 0x26, 0x7f, 0xa2, 0xa4, 0x48, 0xa9, 0xff, 0x9f, 0xd1, 0x22, 0xaa, 0x9f, 0xd1, 0x22, 0x44, 0x8a, 0xd0, 0x08]

/-- ts/data_test.go:44-49 -/
def adaptationFieldPacket : List UInt8 := [
  0x47, 0x00, 0x21, 0x36, 0x67, 0x00, 0xff, 0xff, 0xff, 0xff, 0xff, 0xff, 0xff, 0xff, 0xff, 0xff, 0xff, 0xff, 0xff, 0xff,
  0xff, 0xff, 0xff, 0xff, 0xff, 0xff, 0xff, 0xff, 0xff, 0xff, 0xff, 0xff, 0xff, 0xff, 0xff, 0xff, 0xff, 0xff, 0xff, 0xff,
  0xff, 0xff, 0xff, 0xff, 0xff, 0xff, 0xff, 0xff, 0xff, 0xff, 0xff, 0xff, 0xff, 0xff, 0xff, 0xff, 0xff, 0xff, 0xff, 0xff,
  0xff, 0xff, 0xff, 0xff, 0xff, 0xff, 0xff, 0xff, 0xff, 0xff, 0xff, 0xff, 0xff, 0xff, 0xff, 0xff, 0xff, 0xff, 0xff, 0xff,
  0xff, 0xff, 0xff, 0xff, 0xff, 0xff, 0xff, 0xff, 0xff, 0xff, 0xff, 0xff, 0xff, 0xff, 0xff, 0xff, 0xff, 0xff, 0xff, 0xff,
  0xff, 0xff, 0xff, 0xff, 0xff, 0xff, 0xff, 0xff, 0x4d, 0xc1, 0xd1, 0xd4, 0x9a, 0x39, 0xac, 0xb5, 0x53, 0xd9, 0xdd, 0xd3,
  0xeb, 0xa4, 0xe5, 0xcd, 0x4b, 0x7d, 0x55, 0x49, 0xc9, 0x9a, 0x93, 0xea, 0xaa, 0xa4, 0xf8, 0xb3, 0x47, 0xcf, 0xea, 0x93,
  0x27, 0x45, 0x2e, 0x6b, 0x2f, 0xaa, 0xaa, 0xa3, 0xaf, 0x3f, 0x2a, 0x12, 0x51, 0xfb, 0xe9, 0x19, 0xfa, 0x0b, 0x7f, 0x09,
  0x4d, 0x0c, 0xaa, 0xa4, 0x9e, 0xc3, 0x4f, 0x6f, 0x43, 0x52, 0xc3, 0x95, 0x27, 0x06, 0x4a, 0x0c, 0xfc, 0xab, 0x0a, 0x82,
  0xee, 0xee, 0xb6, 0x86, 0x39, 0xf7, 0x00, 0x00]

/-! ### ts/packet_test.go -/

/-- TestPacketParsing -/
example : (newPacket (BR.ofBytes nullPacket)).1 = .ok () ∧ (newPacket (BR.ofBytes nullPacket)).2.pkt.pid = 0x1fff := by
  decide +kernel

/-- TestEOFAfterPacket -/
example : (newPacket (newPacket (BR.ofBytes nullPacket)).2.br).1 = .err .eof := by decide +kernel

/-- TestIncompletePacket -/
example : (newPacket (BR.ofBytes (nullPacket.take 4))).1 = .err .unexpectedEOF := by decide +kernel

/-! ### ts/adaptation_field_test.go -/

/-- TestAdaptationField -/
example : (newPacket (BR.ofBytes adaptationFieldPacket)).1 = .ok () ∧
    (newPacket (BR.ofBytes adaptationFieldPacket)).2.pkt.adaptationFieldControl = 3 ∧
    (newPacket (BR.ofBytes adaptationFieldPacket)).2.pkt.adaptationField.isSome = true ∧
    (newPacket (BR.ofBytes adaptationFieldPacket)).2.pkt.payload.length = 80 := by decide +kernel

/-! ### ts/packet_tester_test.go -/

/-- TestBasicPacketTester -/
example : isPID 1 { pid := 1 } = true ∧ isPID 1 { pid := 2 } = false := by decide +kernel

/-- TestAndingPacketTesters -/
example : ((isPID 1).and isPayloadUnitStart) { pid := 1, payloadUnitStartIndicator := false } = false ∧
    ((isPID 1).and isPayloadUnitStart) { pid := 1, payloadUnitStartIndicator := true } = true ∧
    ((isPID 1).and isPayloadUnitStart) { pid := 2, payloadUnitStartIndicator := true } = false := by decide +kernel

/-! ### ts/payload_reader_test.go -/

/-- One Read of `n` bytes by a payload reader: the bytes and the error. -/
def readOnce (source : List UInt8) (pid n : Nat) : Res (List UInt8 × Option Err) :=
  (PR.read { whre := isPID pid } 20 n (PR.new (BR.ofBytes source))).1

/-- TestReadingASinglePacket (the Read that `io.ReadAtLeast` makes) -/
example : readOnce nullPacket 0x1fff 184 = .ok (List.replicate 184 255, none) := by decide +kernel

/-- TestReadingTwoPackets -/
example : readOnce (nullPacket ++ nullPacket) 0x1fff 368 = .ok (List.replicate 368 255, none) := by decide +kernel

/-- TestReadingTooMuch (`io.ReadAtLeast` turns `io.EOF` after some bytes into `io.ErrUnexpectedEOF`) -/
example : readOnce (nullPacket ++ nullPacket) 0x1fff 552 = .ok (List.replicate 368 255, some .eof) := by decide +kernel

/-- TestStreamWithMultipleParts: the payloads of the three packets with this PID, 552 bytes, then `io.EOF` -/
example : (match readOnce shortTsStream 0x21 1000 with
    | .ok (bytes, e) => bytes.length == 3 * 184 && e == some .eof
    | _ => false) = true := by decide +kernel

/-! ### ts/decode_example_test.go -/

/-- The PIDs and the continuity counters of the packets up to the first error. -/
def heads : Nat → St → List (Nat × Nat)
  | 0, _ => []
  | n + 1, s => match Packet.next s with
    | (.ok _, t) => (t.pkt.pid, t.pkt.continuityCounter) :: heads n t
    | _ => []

/-- Example -/
example : heads 20 ⟨Packet.new, BR.ofBytes shortTsStream⟩ = [(0x21, 0xd), (0x31, 6), (0x21, 0xe), (0x41, 0xb), (0x21, 0xf)] := by
  decide +kernel

/-! ### ts/demuxer_test.go: the goroutine with consumers that always receive -/

/-- The step of the goroutine when everybody receives. -/
def exec1 (d : Demuxer) (s : DSt) : DSt :=
  match s.pc with
  | .fetch => match Packet.next s.st with
    | (.err e, st) => { s with st := st, lastErr := some e, pc := .closing 0 }
    | (.panic, st) => { s with st := st, pc := .crashed }
    | (.hang, _) => s
    | (.ok _, st) =>
      if s.skipping then
        if d.skipUntil st.pkt then { s with st := st, skipping := false, pc := .send 0 } else { s with st := st }
      else if d.takeWhile st.pkt then { s with st := st, pc := .send 0 } else { s with st := st, pc := .closing 0 }
  | .send i => match d.chans[i]? with
    | none => { s with pc := .fetch }
    | some t =>
      if t s.st.pkt then { s with pc := .send (i + 1), waiting := setW (setW s.waiting i true) i false,
                                  log := s.log ++ [.recv i s.st.pkt] }
      else { s with pc := .send (i + 1) }
  | .closing i => match d.chans[i]? with
    | none => { s with pc := .doneSend }
    | some _ => { s with pc := .closing (i + 1), log := s.log ++ [.close i] }
  | .doneSend => { s with pc := .finished, waitDone := false, log := s.log ++ [.done] }
  | .finished => s
  | .crashed => s

def exec (d : Demuxer) : Nat → DSt → DSt
  | 0, s => s
  | n + 1, s => exec d n (exec1 d s)

theorem exec1_reach {d : Demuxer} {br : BR} {s : DSt} (h : Reach d br s) : Reach d br (exec1 d s) := by
  unfold exec1
  split
  · rename_i hpc
    split
    · exact h.demux (.err hpc (by assumption))
    · exact h.demux (.panic hpc (by assumption))
    · exact h
    · rename_i u st hn
      split
      · rename_i hs
        split
        · exact h.demux (.start hpc hn hs (by assumption))
        · exact h.demux (.skip hpc hn hs (Bool.eq_false_iff.2 (by assumption)))
      · rename_i hs
        split
        · exact h.demux (.take hpc hn (Bool.eq_false_iff.2 hs) (by assumption))
        · exact h.demux (.stop hpc hn (Bool.eq_false_iff.2 hs) (Bool.eq_false_iff.2 (by assumption)))
  · rename_i i hpc
    split
    · exact h.demux (.loop hpc (by assumption))
    · split
      · have h1 := h.env (.ready s i)
        exact h1.demux (.deliver (s := { s with waiting := setW s.waiting i true }) hpc (by assumption) (by assumption) (if_pos rfl))
      · exact h.demux (.pass hpc (by assumption) (Bool.eq_false_iff.2 (by assumption)))
  · rename_i i hpc
    split
    · exact h.demux (.closed hpc (by assumption))
    · exact h.demux (.close hpc (by assumption))
  · rename_i hpc
    have h1 := h.env (.readyDone s)
    exact h1.demux (.done (s := { s with waitDone := true }) hpc rfl)
  · exact h
  · exact h

/-- What `exec` computes is a run of the demuxer. -/
theorem exec_reach {d : Demuxer} {br : BR} : ∀ (n : Nat) {s : DSt}, Reach d br s → Reach d br (exec d n s)
  | 0, _, h => h
  | n + 1, _, h => exec_reach n (exec1_reach h)

/-- How often channel `i` received a packet. -/
def received (i : Nat) (s : DSt) : Nat :=
  (s.log.filter fun e => match e with | .recv j _ => j == i | _ => false).length

/-- TestDemuxingASinglePacket -/
def single : DSt := exec ⟨[isPID 0x1fff], alwaysTrue, alwaysTrue⟩ 2 (DSt.new (BR.ofBytes (nullPacket ++ nullPacket)))
example : single.log.map (fun e => match e with | .recv i p => (i, p.pid) | _ => (9, 9)) = [(0, 0x1fff)] ∧
    single.lastErr = none := by decide +kernel

/-- TestDemuxingASingleStream -/
def four : DSt := exec ⟨[isPID 0x1fff], alwaysTrue, alwaysTrue⟩ 30
  (DSt.new (BR.ofBytes (nullPacket ++ nullPacket ++ nullPacket ++ nullPacket)))
example : received 0 four = 4 ∧ four.pc = .finished ∧ four.lastErr = some .eof := by decide +kernel

/-- TestDemuxingUsingWheres -/
def wheres : DSt := exec ⟨[isPID 0x21, (isPID 0x21).not], alwaysTrue, alwaysTrue⟩ 40
  (DSt.new (BR.ofBytes (nullPacket ++ dataPacket ++ nullPacket ++ dataPacket ++ nullPacket)))
example : received 0 wheres = 2 ∧ received 1 wheres = 3 ∧ wheres.pc = .finished ∧ wheres.lastErr = some .eof := by
  decide +kernel

/-- TestDemuxingRange -/
def range : DSt := exec ⟨[fun _ => true], isPID 0x31, (isPID 0x41).not⟩ 30 (DSt.new (BR.ofBytes shortTsStream))
example : received 0 range = 2 ∧ range.pc = .finished ∧ range.lastErr = none := by decide +kernel

end Mpeg.TS.RepoTests
