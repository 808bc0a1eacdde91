import sys, subprocess, random, gen, port, collections
a,b=int(sys.argv[1]),int(sys.argv[2])
p=subprocess.Popen(['/tmp/vdiff/runner'],stdin=subprocess.PIPE,stdout=subprocess.PIPE,text=True)
st=collections.Counter(); bad=0
for seed in range(a,b):
    bits=gen.G(seed).stream()
    want=port.run(bits)
    p.stdin.write(bits+'\n'); p.stdin.flush()
    got=[]
    while True:
        l=p.stdout.readline()
        if not l: print('runner died',seed); sys.exit(1)
        l=l.rstrip('\n')
        if l=='END': break
        got.append(l)
    st[want[-2][:8]]+=1; st['frames']+=len([x for x in want if x[0]=='F'])
    if want!=got:
        bad+=1
        print('DIFF',seed,len(want),len(got))
        for i,(x,y) in enumerate(zip(want,got)):
            if x!=y: print(' ',i,x[:100],'|',y[:100]); break
        if bad>10: break
print(dict(st),'bad',bad)
