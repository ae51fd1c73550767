53 binaries; pass: 49 fail: ['fence_i', 'ma_data', 'mcsr', 'zicntr']
marked xfail in the repo: ['fence_i', 'ma_data', 'mcsr', 'zicntr']
HANDWRITTEN 45 checks, 0 bad
CSR_R0 3 checks, 0 bad
CSRW 20 checks, 0 bad
EXCEPTION 4 checks, 0 bad
witness 27 cycles, registers ok csrs ok
microcode: 196 statements, 118 labels, 48 bits; 256 of 256 addresses agree []
