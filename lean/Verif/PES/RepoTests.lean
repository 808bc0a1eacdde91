/-
The test of package pes (/repo/pes/packet_test.go), run on the model by the kernel (a check of the model, no proof of a
property).
-/
import Verif.PES.Model
namespace Mpeg.PES.RepoTests

/-- pes/data_test.go:9-45 -/
def packetWithExtensionFlag : List UInt8 := [
  0x00, 0x00, 0x01, 0xe0, 0x07, 0xec, 0x80, 0xc1, 0x0d, 0x31, 0x00, 0x03, 0x10, 0x77, 0x11, 0x00, 0x01, 0xf9, 0x01, 0x1e,
  0x61, 0x02, 0x00, 0x00, 0x01, 0xb3, 0x2d, 0x01, 0xe0, 0x24, 0x0e, 0xa6, 0x23, 0x81, 0x10, 0x11, 0x11, 0x12, 0x12, 0x12,
  0x13, 0x13, 0x13, 0x13, 0x14, 0x14, 0x14, 0x14, 0x14, 0x15, 0x15, 0x15, 0x15, 0x15, 0x15, 0x16, 0x16, 0x16, 0x16, 0x16,
  0x16, 0x16, 0x17, 0x17, 0x17, 0x17, 0x17, 0x17, 0x17, 0x17, 0x18, 0x18, 0x18, 0x19, 0x18, 0x18, 0x18, 0x19, 0x1a, 0x1a,
  0x1a, 0x1a, 0x19, 0x1b, 0x1b, 0x1b, 0x1b, 0x1b, 0x1c, 0x1c, 0x1c, 0x1c, 0x1e, 0x1e, 0x1e, 0x1f, 0x1f, 0x21, 0x00, 0x00,
  0x01, 0xb5, 0x14, 0x82, 0x00, 0x01, 0x00, 0x00, 0x00, 0x00, 0x01, 0xb5, 0x25, 0x05, 0x05, 0x05, 0x0b, 0x42, 0x0f, 0x00,
  0x00, 0x00, 0x01, 0xb2, 0x00, 0x87, 0x71, 0x1b, 0x01, 0x01, 0x6f, 0x72, 0x1b, 0x01, 0x01, 0x6f, 0x81, 0x00, 0x25, 0x65,
  0x6e, 0x63, 0x6f, 0x64, 0x65, 0x64, 0x20, 0x62, 0x79, 0x20, 0x54, 0x4d, 0x50, 0x47, 0x45, 0x6e, 0x63, 0x20, 0x28, 0x76,
  0x65, 0x72, 0x2e, 0x20, 0x32, 0x2e, 0x30, 0x31, 0x2e, 0x33, 0x30, 0x2e, 0x31, 0x31, 0x36, 0x29, 0x00, 0x00, 0x01, 0xb8,
  0x00, 0x08, 0x00, 0x40, 0x00, 0x00, 0x01, 0x00, 0x00, 0x0a, 0xf0, 0x00, 0x00, 0x00, 0x01, 0xb5, 0x8f, 0xff, 0xf3, 0x1c,
  0x00, 0x00, 0x00, 0x01, 0x01, 0x0b, 0x7c, 0x3d, 0xa3, 0x46, 0x8c, 0x30, 0xda, 0x34, 0x68, 0xd1, 0x86, 0x1b, 0x46, 0x8d,
  0x1a, 0x30, 0xc3, 0x68, 0xd1, 0x88, 0xb9, 0x9e, 0xde, 0xe2, 0xbb, 0x8e, 0xe5, 0xdb, 0x23, 0xf8, 0xef, 0x27, 0x0f, 0xcd,
  0x99, 0xcb, 0xb7, 0xcf, 0x29, 0x52, 0x8d, 0x8c, 0x18, 0x61, 0xb4, 0x68, 0xd1, 0xa3, 0x0c, 0x36, 0x8d, 0x1a, 0x34, 0x61,
  0x86, 0xd1, 0xa3, 0x46, 0x8c, 0x30, 0xda, 0x34, 0x68, 0xd1, 0x86, 0x1b, 0x46, 0x8d, 0x1a, 0x30, 0xc3, 0x68, 0xd1, 0xa3,
  0x46, 0x18, 0x6d, 0x1a, 0x34, 0x68, 0xc3, 0x0d, 0xa3, 0x46, 0x8d, 0x18, 0x61, 0xb4, 0x68, 0xd1, 0xa3, 0x0c, 0x36, 0x92,
  0xdd, 0xdc, 0x93, 0x2a, 0x4d, 0xd4, 0xab, 0x4e, 0xa9, 0x23, 0x46, 0x8d, 0x18, 0x61, 0xb4, 0x68, 0xd1, 0xa3, 0x0c, 0x36,
  0x8d, 0x1a, 0x34, 0x61, 0x86, 0xd1, 0xa3, 0x46, 0x8c, 0x30, 0xda, 0x34, 0x68, 0xd1, 0x86, 0x1b, 0x46, 0x8d, 0x1a, 0x30,
  0xc3, 0x68, 0xd1, 0xa3, 0x46, 0x18, 0x6d, 0x1a, 0x34, 0x68, 0xc3, 0x0d, 0xa3, 0x46, 0x8d, 0x18, 0x61, 0xb4, 0x68, 0xd1,
  0xa3, 0x0c, 0x36, 0x8d, 0x1a, 0x34, 0xc5, 0xfc, 0xd2, 0xd2, 0x7e, 0x92, 0x48, 0xb8, 0xb6, 0x8d, 0xb6, 0x9f, 0xe1, 0x14,
  0x6b, 0x0c, 0x36, 0x8d, 0x1a, 0x34, 0x61, 0x86, 0xd1, 0xa3, 0x46, 0x8c, 0x30, 0xda, 0x34, 0x68, 0xd1, 0x86, 0x1b, 0x46,
  0x99, 0x92, 0xdd, 0xb6, 0xc9, 0x06, 0xdb, 0x30, 0xa9, 0x6d, 0x41, 0xf4, 0xb6, 0x8d, 0x18, 0x61, 0xb4, 0x68, 0xd1, 0xa3,
  0x0c, 0x36, 0x8d, 0x1a, 0x34, 0x61, 0x86, 0xd1, 0xa3, 0x46, 0x8c, 0x30, 0xda, 0x34, 0x68, 0xd1, 0x86, 0x1b, 0x46, 0x8d,
  0x1a, 0x30, 0xc3, 0x68, 0xd1, 0xa3, 0x46, 0x18, 0x6d, 0x1a, 0x34, 0x68, 0xc3, 0x0d, 0xa3, 0x46, 0x8d, 0x18, 0x61, 0xb4,
  0x68, 0xd1, 0xa3, 0x0c, 0x36, 0x8d, 0x1a, 0x34, 0x61, 0x86, 0xd1, 0xa3, 0x46, 0x8c, 0x30, 0xda, 0x34, 0x68, 0xd1, 0x86,
  0x1b, 0x46, 0x8d, 0x1a, 0x30, 0xc3, 0x68, 0xc5, 0xfd, 0x88, 0xf6, 0xe6, 0xde, 0x44, 0x79, 0xe0, 0x73, 0xc1, 0x0f, 0xfe,
  0xa7, 0x2e, 0x77, 0x60, 0x45, 0x27, 0x77, 0xb8, 0x1d, 0xa6, 0x69, 0x54, 0x7c, 0x60, 0xd3, 0x17, 0x77, 0x22, 0x5a, 0x74,
  0x95, 0x6c, 0x89, 0x6d, 0x41, 0xb6, 0xb0, 0xc3, 0x68, 0xd0, 0xd9, 0xa6, 0x19, 0x65, 0xb3, 0x66, 0x59, 0xb4, 0xeb, 0x2d,
  0x94, 0xba, 0xd1, 0xa3, 0x0c, 0x36, 0x8d, 0x1a, 0x34, 0x61, 0x86, 0xd1, 0xa3, 0x46, 0x8c, 0x30, 0xc0, 0x00, 0x00, 0x01,
  0x02, 0x0b, 0x7c, 0x3d, 0xa3, 0x46, 0x8c, 0x30, 0xda, 0x34, 0x68, 0xd1, 0x86, 0x1b, 0x46, 0x8d, 0x1a, 0x30, 0xc3, 0x68,
  0xd1, 0xa3, 0x46, 0x18, 0x6d, 0x1a, 0x34, 0x68, 0xc3, 0x0d, 0x9c, 0x01, 0x85, 0xff, 0x80, 0x28, 0x00, 0x54, 0x44, 0xf8,
  0xa0, 0x0e, 0xc0, 0x1e, 0x89, 0xce, 0x38, 0xc1, 0x20, 0x0f, 0x7d, 0xec, 0x96, 0xaf, 0xbb, 0xf3, 0x28, 0xc6, 0x46, 0x8d,
  0x18, 0x61, 0xb4, 0x68, 0xd1, 0xa3, 0x0c, 0x36, 0x8d, 0x1a, 0x34, 0x61, 0x86, 0xd1, 0xa3, 0x4a, 0x5c, 0x96, 0xfa, 0x58,
  0xb5, 0xa6, 0xcb, 0x36, 0x59, 0x7c, 0x25, 0x96, 0x78, 0x59, 0x58, 0x61, 0xb4, 0x68, 0xd3, 0xb7, 0x5d, 0x73, 0xf2, 0xcf,
  0x17, 0x73, 0x66, 0x50, 0xb5, 0x92, 0xb4, 0x61, 0x86, 0xd1, 0xa3, 0x46, 0x8c, 0x30, 0xda, 0x34, 0x68, 0xd1, 0x86, 0x1b,
  0x46, 0x8d, 0x1a, 0x30, 0xc3, 0x68, 0xd1, 0xa3, 0x46, 0x18, 0x6d, 0x1a, 0x34, 0x68, 0xc3, 0x0d, 0xa3, 0x46, 0x8d, 0x18,
  0x61, 0xb4, 0x68, 0xd1, 0xa3, 0x0c, 0x36, 0x8d, 0x1a, 0x34, 0x61, 0x86, 0xd1, 0xa3, 0x46, 0x8c, 0x30, 0xda, 0x34, 0x68,
  0xd1, 0x86, 0x1b, 0x46, 0x8d, 0x1a, 0x30, 0xc3, 0x68, 0xd1, 0xa3, 0x46, 0x18, 0x6d, 0x1a, 0x33, 0x77, 0xf7, 0xf8, 0xf6,
  0x79, 0x17, 0x81, 0x7c, 0x70, 0x2c, 0xc9, 0xe7, 0x82, 0xfd, 0x88, 0xbc, 0x02, 0x10, 0x04, 0xfb, 0xef, 0x0a, 0xfe, 0x8d,
  0x00, 0xa3, 0x72, 0xf6, 0xe1, 0x9a, 0x1f, 0x95, 0x0b, 0x65, 0x61, 0x86, 0xd1, 0xa3, 0x46, 0x9d, 0xbb, 0x45, 0xfb, 0x71,
  0xdf, 0x2e, 0x83, 0xae, 0xf0, 0xfe, 0x33, 0x5f, 0x90, 0xf2, 0x65, 0xb9, 0x2d, 0x61, 0x86, 0xd1, 0xa3, 0x4b, 0x12, 0xcb,
  0x28, 0x5c, 0x95, 0x67, 0x83, 0x46, 0x18, 0x6d, 0x1a, 0x34, 0x68, 0xc3, 0x0d, 0xa3, 0x46, 0x8d, 0x18, 0x61, 0xb4, 0x68,
  0xd1, 0xa3, 0x0c, 0x36, 0x8d, 0x1a, 0x34, 0x61, 0x86, 0xd1, 0xa3, 0x46, 0x24, 0x61, 0x1c, 0x08, 0xf8, 0x04, 0x20, 0x06,
  0xe1, 0xd2, 0x15, 0x30, 0x0c, 0xf7, 0xcf, 0x7c, 0xe8, 0xd0, 0x09, 0xdf, 0xba, 0x5d, 0xbe, 0x8c, 0x30, 0xd8, 0x34, 0x63,
  0xef, 0xd6, 0xfb, 0x91, 0x05, 0x09, 0x16, 0xe8, 0x1b, 0xbc, 0x3f, 0x89, 0xbb, 0x20, 0x45, 0x60, 0xc3, 0x0d, 0xa3, 0x46,
  0x8d, 0x18, 0x61, 0xb4, 0x68, 0xd1, 0xa3, 0x0c, 0x36, 0x8d, 0x1a, 0x34, 0x61, 0x86, 0xd1, 0xa3, 0x46, 0x8c, 0x30, 0xda,
  0x34, 0x68, 0xd1, 0x86, 0x1b, 0x46, 0x8d, 0x1a, 0x30, 0xc3, 0x68, 0xd1, 0xa3, 0x46, 0x18, 0x6d, 0x1a, 0x34, 0x68, 0xc3,
  0x0d, 0xa3, 0x46, 0x8d, 0x18, 0x61, 0xb4, 0x68, 0xd1, 0xa3, 0x0c, 0x36, 0x8d, 0x1a, 0x34, 0x61, 0x86, 0xd1, 0xa3, 0x46,
  0x8c, 0x30, 0xda, 0x34, 0x68, 0xd1, 0x86, 0x1b, 0x46, 0x8d, 0x1a, 0x30, 0xc3, 0x00, 0x00, 0x00, 0x01, 0x03, 0x0b, 0x7c,
  0x3d, 0xa3, 0x46, 0x8c, 0x30, 0xda, 0x34, 0x68, 0xd1, 0x86, 0x1b, 0x46, 0x8d, 0x1a, 0x30, 0xc3, 0x68, 0xd1, 0xa3, 0x46,
  0x18, 0x6d, 0x1a, 0x34, 0x68, 0xc3, 0x0d, 0xa3, 0x46, 0x8d, 0x18, 0x61, 0xb4, 0x69, 0xb9, 0x56, 0xc9, 0x65, 0x0c, 0xb6,
  0x17, 0x2c, 0x2c, 0x75, 0x68, 0xcc, 0x00, 0xe3, 0xed, 0xec, 0x2b, 0xe3, 0xeb, 0xf7, 0xeb, 0x8e, 0xb0, 0x66, 0x09, 0xf9,
  0xf9, 0x22, 0xc9, 0xef, 0xdf, 0x37, 0xf2, 0x74, 0xe8, 0x54, 0x9c, 0x60, 0xc3, 0x98, 0x61, 0xb2, 0xb4, 0x68, 0xd1, 0x86,
  0x1b, 0x46, 0x22, 0x3a, 0x70, 0x05, 0x22, 0x43, 0xa0, 0x00, 0xa7, 0x9f, 0xc7, 0x01, 0xf4, 0x00, 0x51, 0x85, 0xd2, 0x82,
  0x58, 0x34, 0x61, 0x86, 0xd1, 0xa3, 0x46, 0x8c, 0x30, 0xda, 0x34, 0x68, 0xd1, 0x86, 0x1b, 0x46, 0x8d, 0x1a, 0x30, 0xc3,
  0x68, 0xd1, 0xa3, 0x46, 0x18, 0x6d, 0x1a, 0x34, 0x68, 0xc3, 0x0d, 0xa3, 0x46, 0x8d, 0x18, 0x61, 0xb4, 0x68, 0xd1, 0xa3,
  0x0c, 0x36, 0x8d, 0x1a, 0x34, 0x61, 0x86, 0xd1, 0xa3, 0x46, 0x8c, 0x30, 0xda, 0x34, 0x68, 0xd1, 0x86, 0x1b, 0x46, 0x8d,
  0x1a, 0x30, 0xc3, 0x68, 0xd1, 0xa3, 0x46, 0x18, 0x6d, 0x1a, 0x34, 0x68, 0xc3, 0x0d, 0xa3, 0x46, 0x8d, 0x18, 0x61, 0xb4,
  0x68, 0x2b, 0xae, 0x05, 0xfb, 0xf1, 0xd0, 0xbe, 0xdd, 0x92, 0x5d, 0x7f, 0x3c, 0x70, 0xfe, 0x73, 0x1e, 0xf7, 0x66, 0x1b,
  0x69, 0x99, 0x6c, 0x5b, 0x21, 0x6d, 0x1a, 0x30, 0xc3, 0x69, 0x99, 0x31, 0xd9, 0x99, 0x24, 0x3a, 0x49, 0x24, 0x92, 0x49,
  0x22, 0x1d, 0x24, 0x68, 0xd1, 0xa3, 0x0c, 0x36, 0x8d, 0x1a, 0x34, 0x61, 0x86, 0xd1, 0xa3, 0x46, 0x8c, 0x30, 0xda, 0x34,
  0x68, 0xd1, 0x86, 0x1b, 0x46, 0x8d, 0x1a, 0x30, 0xc3, 0x68, 0xd1, 0xa3, 0x46, 0x18, 0x6d, 0x1a, 0x6b, 0xdd, 0xdb, 0x9d,
  0x78, 0xe4, 0xd8, 0xb7, 0x0c, 0xdb, 0x0a, 0xa6, 0xcf, 0x16, 0x8d, 0x18, 0x3c, 0x63, 0x0d, 0xa3, 0x46, 0x8d, 0x18, 0x61,
  0xb4, 0x68, 0xd1, 0xa3, 0x0c, 0x36, 0x8d, 0x1a, 0x34, 0xdc, 0xb3, 0x4a, 0xb0, 0x30, 0xbc, 0xb2, 0xc1, 0xa7, 0xc2, 0x98,
  0x61, 0xb4, 0x68, 0xd1, 0xa3, 0x0c, 0x36, 0x8d, 0x1a, 0x34, 0x61, 0x86, 0xd0, 0x29, 0xa3, 0x46, 0x8c, 0x30, 0xda, 0x34,
  0x69, 0xb9, 0x65, 0xb2, 0x20, 0x45, 0xb8, 0x5c, 0x1a, 0x3a, 0xc6, 0x8c, 0x30, 0xda, 0x34, 0x68, 0xd1, 0x86, 0x1b, 0x46,
  0x8d, 0x1a, 0x30, 0xc3, 0x68, 0xd1, 0xa3, 0x46, 0x18, 0x6d, 0x1a, 0x34, 0x68, 0xc3, 0x0d, 0xa3, 0x46, 0x8d, 0x18, 0x61,
  0xb4, 0x59, 0x88, 0xb1, 0x52, 0x2a, 0x50, 0x96, 0x8d, 0x1a, 0x30, 0xc3, 0x68, 0xd1, 0xa3, 0x46, 0x18, 0x60, 0x00, 0x00,
  0x01, 0x04, 0x0b, 0x7c, 0x3d, 0xa3, 0x46, 0x8c, 0x30, 0xda, 0x34, 0x68, 0xd1, 0x86, 0x1b, 0x46, 0x8d, 0x1a, 0x30, 0xc3,
  0x68, 0xd1, 0xa3, 0x46, 0x18, 0x6d, 0x1a, 0x34, 0x68, 0xc3, 0x0d, 0xa3, 0x46, 0x8d, 0x18, 0x61, 0xb4, 0x68, 0xd1, 0xa3,
  0x0c, 0x36, 0x8d, 0x1a, 0x34, 0x61, 0x86, 0xd1, 0xa5, 0xd9, 0x0d, 0x96, 0x28, 0x6c, 0xb0, 0xaa, 0x81, 0x54, 0xe6, 0x8d,
  0x18, 0x61, 0xb4, 0x68, 0xd1, 0xa3, 0x0c, 0x36, 0x8d, 0x1a, 0x34, 0x61, 0x86, 0xd1, 0xa3, 0x46, 0x8c, 0x30, 0xda, 0x34,
  0x68, 0xd1, 0x86, 0x1b, 0x46, 0x8d, 0x1a, 0x30, 0xc3, 0x68, 0xd1, 0xa3, 0x46, 0x18, 0x6d, 0x1a, 0x34, 0x68, 0xc3, 0x0d,
  0xa3, 0x46, 0x8d, 0x18, 0x61, 0xb4, 0x36, 0x07, 0x9d, 0x50, 0x6c, 0x28, 0xf9, 0x28, 0xd9, 0xe0, 0xd1, 0xa3, 0x46, 0x18,
  0x6d, 0x1a, 0x34, 0x68, 0xc3, 0x0d, 0xa3, 0x46, 0x8c, 0x7e, 0x4c, 0xf7, 0xf6, 0x2e, 0xd0, 0xc2, 0xab, 0x03, 0x58, 0x6c,
  0x2c, 0xb6, 0x2d, 0x90, 0x35, 0x1a, 0xf0, 0x40, 0xfb, 0xc0, 0x05, 0x1c, 0x80, 0x18, 0x80, 0x17, 0x40, 0x0a, 0xdf, 0x46,
  0xcc, 0x97, 0x70, 0x65, 0x67, 0x00, 0x73, 0xf5, 0x80, 0x81, 0xf9, 0xa4, 0xee, 0x38, 0x9e, 0x11, 0xba, 0xc4, 0x50, 0x07,
  0x7d, 0x02, 0x07, 0xdf, 0x80, 0x3d, 0xe8, 0x13, 0x7f, 0xe9, 0xa7, 0xe9, 0x48, 0x1a, 0x5f, 0x83, 0x31, 0x71, 0x4e, 0x6d,
  0x48, 0x20, 0x7a, 0x77, 0xdb, 0xe0, 0x01, 0x2f, 0xdb, 0x9c, 0xf6, 0x27, 0x2d, 0x2e, 0xa3, 0x00, 0x40, 0xf5, 0x82, 0x37,
  0xc0, 0x01, 0x30, 0x03, 0x90, 0x42, 0xff, 0x82, 0x72, 0xa4, 0x91, 0xbd, 0x30, 0x03, 0x40, 0x40, 0xfd, 0x71, 0x00, 0x81,
  0xfa, 0xe0, 0x06, 0xa2, 0xdb, 0x30, 0x20, 0x01, 0x88, 0x03, 0x90, 0x41, 0x04, 0x6f, 0xe8, 0x91, 0x62, 0x59, 0x7b, 0x7b,
  0x04, 0xad, 0x6a, 0xf7, 0x12, 0x11, 0x11, 0xb7, 0x9a, 0x04, 0x0f, 0x7c, 0x00, 0x6d, 0xed, 0x9a, 0xeb, 0x12, 0xda, 0xc8,
  0x08, 0x1f, 0x2f, 0xfe, 0x10, 0x00, 0xb8, 0x01, 0xdb, 0xad, 0x8b, 0x56, 0xa2, 0xb7, 0x64, 0x10, 0x00, 0xd4, 0x01, 0xe8,
  0x00, 0x87, 0xbe, 0xc0, 0x0e, 0x01, 0x2c, 0x01, 0x5b, 0x30, 0x20, 0x01, 0xb0, 0x02, 0xf0, 0x03, 0x60, 0x07, 0x44, 0x40,
  0x4d, 0x00, 0x56, 0x7d, 0x74, 0xcb, 0xbe, 0xdb, 0x63, 0x04, 0x0f, 0x75, 0x00, 0x50, 0x46, 0x12, 0x00, 0xf3, 0xdc, 0x47,
  0xff, 0x8e, 0x75, 0x2d, 0x31, 0x5b, 0x08, 0x20, 0x7e, 0x98, 0x02, 0x8f, 0xa8, 0x01, 0x60, 0x20, 0x7e, 0xb7, 0xb7, 0xb8,
  0x03, 0x6f, 0x9e, 0xa9, 0xf2, 0x47, 0x43, 0xe6, 0xc2, 0xdb, 0xd2, 0x80, 0x18, 0x09, 0xf6, 0x04, 0x0f, 0xa8, 0xff, 0x80,
  0x3e, 0x04, 0xcf, 0xf9, 0xf7, 0x6e, 0x88, 0x01, 0x88, 0x20, 0x7e, 0x40, 0x90, 0x40, 0x04, 0x70, 0x02, 0x0f, 0x70, 0x43,
  0xff, 0x96, 0x3e, 0x25, 0xa3, 0x18, 0xf9, 0xad, 0xbc, 0x2b, 0x46, 0xeb, 0x82, 0x07, 0xc9, 0xfc, 0xf0, 0x08, 0x00, 0xae,
  0x00, 0xe7, 0x08, 0x84, 0x57, 0xc0, 0xd4, 0x42, 0xa5, 0xa5, 0x37, 0x2c, 0x01, 0x79, 0x1b, 0x7e, 0x9f, 0x5c, 0xb3, 0x85,
  0x87, 0x6c, 0xa1, 0x2c, 0xfa, 0x7c, 0xb1, 0x97, 0x78, 0x4e, 0xe6, 0x23, 0x64, 0x68, 0xd1, 0xa3, 0x36, 0x4d, 0xa3, 0x46,
  0x8d, 0x18, 0x61, 0xb4, 0x68, 0xd1, 0xa3, 0x0c, 0x36, 0x8d, 0x1a, 0x34, 0x61, 0x86, 0xd1, 0xa3, 0x46, 0x8c, 0x30, 0xda,
  0x34, 0x68, 0xd1, 0x86, 0x1b, 0x4a, 0x03, 0x26, 0x8d, 0x24, 0x37, 0x64, 0xa7, 0x95, 0x0a, 0xb6, 0x4a, 0x5d, 0x1c, 0xb5,
  0xa3, 0x0a, 0xc3, 0x68, 0xd1, 0xa3, 0x46, 0x18, 0x6d, 0x1a, 0x34, 0x68, 0xc3, 0x0d, 0xa3, 0x46, 0x8d, 0x18, 0x61, 0xb1,
  0xfa, 0xfb, 0x72, 0x45, 0xff, 0x0a, 0x13, 0xf3, 0xd6, 0x00, 0xf7, 0x78, 0xd7, 0x07, 0xc8, 0xc2, 0xec, 0x7c, 0xc3, 0x28,
  0x62, 0x50, 0x3e, 0x5a, 0xcc, 0x00, 0xd3, 0xf9, 0xf0, 0x00, 0xdc, 0x01, 0x5f, 0xd3, 0xed, 0xff, 0x22, 0xf1, 0x06, 0xf6,
  0x2b, 0xe3, 0xb1, 0x72, 0x73, 0xb8, 0xaa, 0x73, 0x2b, 0x0b, 0x40, 0xd9, 0xd1, 0x86, 0xd1, 0xa3, 0x41, 0xf4, 0x0a, 0x24,
  0xd6, 0x8c, 0x50, 0x1f, 0x30, 0xda, 0x34, 0x63, 0xdf, 0x97, 0xb0, 0x9e, 0xb9, 0xbc, 0x68, 0x0f, 0x73, 0xc9, 0xf9, 0x53,
  0x4f, 0x19, 0x2b, 0x06, 0x0e, 0xaa, 0x49, 0x61, 0xb4, 0x68, 0xd1, 0xa3, 0x0c, 0x36, 0x3f, 0x3d, 0x69, 0x1b, 0xea, 0x28,
  0x48, 0xad, 0x0b, 0xe1, 0xcf, 0x97, 0x29, 0x2d, 0x83, 0x46, 0x8c, 0x1c, 0x7d, 0x61, 0xb4, 0x68, 0xd1, 0xa3, 0x0c, 0x36,
  0x8d, 0x1a, 0x49, 0x2d, 0x2e, 0xfa, 0x4b, 0x64, 0x18, 0x7d, 0x29, 0xa3, 0x0c, 0x36, 0x8d, 0x1a, 0x34, 0x61, 0x86, 0xd1,
  0xa3, 0x46, 0x8c, 0x30, 0xda, 0x34, 0x68, 0xd1, 0x86, 0x18, 0x00, 0x00, 0x01, 0x05, 0x0b, 0x7c, 0x3d, 0xa3, 0x46, 0x8c,
  0x30, 0xda, 0x34, 0x68, 0xd1, 0x86, 0x1b, 0x46, 0x8d, 0x1a, 0x30, 0xc3, 0x68, 0xd1, 0xff, 0xff, 0xff, 0xff]

/-- TestPacketWithExtensionFlag: the packet has a header extension, and the marker 0xffffffff follows the packet. -/
example : (newPacket (BR.ofBytes packetWithExtensionFlag)).1 = .ok () ∧
    ((newPacket (BR.ofBytes packetWithExtensionFlag)).2.pkt.header.bind (·.extension)).isSome = true ∧
    (BR.peek 32 (newPacket (BR.ofBytes packetWithExtensionFlag)).2.br).1 = .ok 0xffffffff := by decide +kernel

end Mpeg.PES.RepoTests
